import Verif.Lemmas.Captures
import Verif.Model.Inline
/-! # What the inline parsing functions do with a match -/
namespace Rustla

/-- The only panic of the inline parser: `4 - content_len` for a PEP number of more than four characters. -/
def pepPanic : Panic := .underflow "inline.rs interpreted_text 4 - content_len"

/-- A result that moves forward by at least one character, within the match. -/
def Progress (m : Match) (o : InlineOut) : Prop := 1 ≤ o.2.1 ∧ o.2.1 ≤ m.whole.length

theorem Match.need_ok {m : Match} {g : Grp} {t : Str} (h : m.get g = some t) : m.need g = .ok t := by
  simp [Match.need, h]

theorem Match.getD_length (m : Match) (g : Grp) : (m.getD g).length = m.len g := rfl

theorem Match.len_of_get {m : Match} {g : Grp} {t : Str} (h : m.get g = some t) : m.len g = t.length := by
  simp [Match.len, h]

theorem isEmpty_false_length {α} {l : List α} (h : l.isEmpty = false) : 1 ≤ l.length := by
  cases l with
  | nil => simp at h
  | cons => simp

theorem quotation_nonempty {a b : Str} (h : quotationMatches a b = true) : 1 ≤ a.length := by
  cases a with
  | nil =>
    have : ∀ n, endsWithCp [] n = false := fun n => rfl
    simp [quotationMatches, this] at h
  | cons => simp

theorem pairedDelimiter_ok {r : Re} {s : Str} {m : Match} (k : Paired) (d : Option DocTree) (h : r.captures s = some m)
    (h1 : r.always [.markupStart] = true) (h2 : r.always [.content] = true) (h3 : r.always [.markupEnd] = true)
    (h4 : ∀ p ∈ r.capBodies, p.1 = .markupStart → 1 ≤ p.2.minLen)
    (h5 : r.flat [.lookbehind, .markupStart, .content, .markupEnd] = true) :
    ∃ o, pairedDelimiter k m d = .ok o ∧ Progress m o := by
  obtain ⟨a, ha⟩ := Re.get_always1 h .markupStart h1
  obtain ⟨b, hb⟩ := Re.get_always1 h .content h2
  obtain ⟨c, hc⟩ := Re.get_always1 h .markupEnd h3
  have l1 := Re.get_minLen h ha 1 h4
  have l2 := Re.len_sum_le h [.lookbehind, .markupStart, .content, .markupEnd] (by decide) h5
  simp only [List.map_cons, List.map_nil, List.sum_cons, List.sum_nil, Match.len_of_get ha, Match.len_of_get hb,
    Match.len_of_get hc] at l2
  simp only [pairedDelimiter, Match.need_ok ha, Match.need_ok hb, Match.need_ok hc, bind, Except.bind, pure,
    Except.pure]
  split
  · exact ⟨_, rfl, by simp only [Progress, Match.getD_length]; omega⟩
  · exact ⟨_, rfl, by simp only [Progress, Match.getD_length]; omega⟩

theorem strong_ok {s : Str} {m : Match} (d : Option DocTree) (h : reStrongEmph.captures s = some m) :
    ∃ o, pairedDelimiter .strong m d = .ok o ∧ Progress m o :=
  pairedDelimiter_ok _ d h (by decide) (by decide) (by decide) (by decide) (by decide)

theorem emph_ok {s : Str} {m : Match} (d : Option DocTree) (h : reEmph.captures s = some m) :
    ∃ o, pairedDelimiter .emph m d = .ok o ∧ Progress m o :=
  pairedDelimiter_ok _ d h (by decide) (by decide) (by decide) (by decide) (by decide)

theorem literal_ok {s : Str} {m : Match} (d : Option DocTree) (h : reLiteral.captures s = some m) :
    ∃ o, pairedDelimiter .literal m d = .ok o ∧ Progress m o :=
  pairedDelimiter_ok _ d h (by decide) (by decide) (by decide) (by decide) (by decide)

theorem target_ok {s : Str} {m : Match} (d : Option DocTree) (h : reInlineTarget.captures s = some m) :
    ∃ o, inlineTarget m d = .ok o ∧ Progress m o := by
  obtain ⟨a, ha⟩ := Re.get_always1 h .markupStart (by decide)
  obtain ⟨b, hb⟩ := Re.get_always1 h .content (by decide)
  obtain ⟨c, hc⟩ := Re.get_always1 h .markupEnd (by decide)
  have l1 := Re.get_minLen h ha 1 (by decide)
  have l2 := Re.len_sum_le h [.lookbehind, .markupStart, .content, .markupEnd] (by decide) (by decide)
  simp only [List.map_cons, List.map_nil, List.sum_cons, List.sum_nil, Match.len_of_get ha, Match.len_of_get hb,
    Match.len_of_get hc] at l2
  simp only [inlineTarget, Match.need_ok ha, Match.need_ok hb, Match.need_ok hc, bind, Except.bind, pure,
    Except.pure]
  exact ⟨_, rfl, by simp only [Progress, Match.getD_length]; omega⟩

theorem whitespace_ok {s : Str} {m : Match} (d : Option DocTree) (h : reInlineWhitespace.captures s = some m) :
    ∃ o, inlineWhitespace m d = .ok o ∧ Progress m o :=
  ⟨_, rfl, Re.captures_minLen h, Nat.le_refl _⟩

theorem text_ok {s : Str} {m : Match} (d : Option DocTree) (h : reInlineText.captures s = some m) :
    ∃ o, inlineText m d = .ok o ∧ Progress m o :=
  ⟨_, rfl, Re.captures_minLen h, Nat.le_refl _⟩

theorem ite_ok {α} {c : Prop} [Decidable c] {a b : Run α} (ha : c → ∃ n, a = .ok n) (hb : ¬ c → ∃ n, b = .ok n) :
    ∃ n, (if c then a else b) = .ok n := by
  by_cases h : c
  · rw [if_pos h]; exact ha h
  · rw [if_neg h]; exact hb h

theorem roleNode_ok (role content : Str) : (∃ n, roleNode role content = .ok n) ∨
    (roleNode role content = .error pepPanic ∧ (role = str! "pep-reference" ∨ role = str! "PEP") ∧ 4 < content.length) := by
  by_cases hp : (role = str! "pep-reference" ∨ role = str! "PEP") ∧ 4 < content.length
  · refine .inr ⟨?_, hp.1, hp.2⟩
    rcases hp with ⟨rfl | rfl, hp⟩
    · simp [roleNode, hp, pepPanic]
    · simp [roleNode, hp, pepPanic]
  · left
    unfold roleNode
    repeat' (first | (exact ⟨_, rfl⟩) | refine ite_ok (fun h1 => ?_) (fun _ => ?_))
    rename_i h2
    exact absurd ⟨h2, h1⟩ hp

theorem interpreted_ok {s : Str} {m : Match} (d : Option DocTree) (h : reInterpretedText.captures s = some m) :
    (∃ o, interpretedText m d = .ok o ∧ Progress m o) ∨ interpretedText m d = .error pepPanic := by
  obtain ⟨a, ha⟩ := Re.get_always1 h .markupStart (by decide)
  obtain ⟨b, hb⟩ := Re.get_always1 h .content (by decide)
  obtain ⟨c, hc⟩ := Re.get_always1 h .markupEnd (by decide)
  have l1 := Re.get_minLen h ha 1 (by decide)
  have l2 := Re.len_sum_le h [.lookbehind, .frontRoleMarker, .markupStart, .content, .markupEnd, .backRoleMarker]
    (by decide) (by decide)
  have l3 : m.len .lookbehind ≤ 1 := by
    unfold Match.len
    cases hg : m.get .lookbehind with
    | none => simp
    | some t =>
      obtain ⟨b, hb, hm⟩ := Re.get_prov h hg
      have : b = .cls clsLookbehind := by
        simpa [reInterpretedText, Re.capBodies, Re.opt, Re.plus, Re.chr] using hb
      subst this
      exact hm.maxLen (n := 1) rfl
  have l4 : (m.getD .frontRoleMarker).isEmpty = false → 3 ≤ m.len .frontRoleMarker := by
    intro hne
    unfold Match.len
    unfold Match.getD at hne
    cases hg : m.get .frontRoleMarker with
    | none => simp [hg] at hne
    | some t => exact Re.get_minLen h hg 3 (by decide)
  simp only [List.map_cons, List.map_nil, List.sum_cons, List.sum_nil, Match.len_of_get ha, Match.len_of_get hb,
    Match.len_of_get hc] at l2
  simp only [interpretedText, Match.need_ok ha, Match.need_ok hb, Match.need_ok hc, bind, Except.bind, pure,
    Except.pure]
  split
  · exact .inl ⟨_, rfl, by simp only [Progress, Match.getD_length]; omega⟩
  split
  · rename_i hq
    simp only [Bool.and_eq_true, Bool.not_eq_true'] at hq
    have := l4 hq.1
    exact .inl ⟨_, rfl, by simp only [Progress, Match.getD_length]; omega⟩
  split
  · exact .inl ⟨_, rfl, by simp only [Progress, Match.getD_length]; omega⟩
  split
  · rename_i hq
    simp only [Bool.not_eq_true'] at hq
    have := isEmpty_false_length hq
    rw [Match.getD_length] at this
    exact .inl ⟨_, rfl, by simp only [Progress, Match.getD_length]; omega⟩
  split
  · exact .inl ⟨_, rfl, by simp only [Progress, Match.getD_length]; omega⟩
  · rcases roleNode_ok (if !(m.getD .frontRole).isEmpty then m.getD .frontRole else m.getD .backRole) b with ⟨n, hn⟩ | ⟨hn, _⟩
    · rw [hn]
      exact .inl ⟨_, rfl, by simp only [Progress, Match.getD_length]; omega⟩
    · rw [hn]; exact .inr rfl

/-- The body of the group `ref_type` in all patterns. -/
def refTypeRe : Re := .seq (.chr '_') (.opt (.chr '_'))

theorem refType_cases {t : Str} (h : MatchedBy refTypeRe t) : t = str! "_" ∨ t = str! "__" := by
  obtain ⟨s, cs, q, hq, e⟩ := h
  cases s with
  | nil => simp [refTypeRe, Re.run, Re.chr] at hq
  | cons c1 s =>
    by_cases h1 : c1 = '_'
    · subst h1
      cases s with
      | nil =>
        simp [refTypeRe, Re.run, Re.chr, Re.opt] at hq
        subst hq; simp at e; exact .inl e.symm
      | cons c2 s =>
        by_cases h2 : c2 = '_'
        · subst h2
          simp [refTypeRe, Re.run, Re.chr, Re.opt] at hq
          rcases hq with rfl | rfl
          · right
            have : ('_' :: '_' :: s) = [ '_', '_'] ++ s := rfl
            rw [this] at e; exact (List.append_cancel_right e).symm
          · left
            have : ('_' :: '_' :: s) = [ '_'] ++ ('_' :: s) := rfl
            rw [this] at e; exact (List.append_cancel_right e).symm
        · simp [refTypeRe, Re.run, Re.chr, Re.opt, h2] at hq
          subst hq
          left
          have : ('_' :: c2 :: s) = [ '_'] ++ (c2 :: s) := rfl
          rw [this] at e; exact (List.append_cancel_right e).symm
    · simp [refTypeRe, Re.run, Re.chr, h1] at hq

theorem refLabel_ok {t : Str} (h : t = str! "_" ∨ t = str! "__") (content : Str) (d : Option DocTree) :
    ∃ l d', refLabel t content d = .ok (l, d') := by
  rcases h with rfl | rfl
  · exact ⟨_, _, rfl⟩
  · cases d with
    | none => exact ⟨_, _, rfl⟩
    | some d => exact ⟨_, _, rfl⟩

theorem simpleRef_ok {s : Str} {m : Match} (d : Option DocTree) (h : reSimpleRef.captures s = some m) :
    ∃ o, simpleRef m d = .ok o ∧ Progress m o := by
  obtain ⟨a, ha⟩ := Re.get_always1 h .content (by decide)
  obtain ⟨b, hb⟩ := Re.get_always1 h .refType (by decide)
  have l1 := Re.get_minLen h ha 1 (by decide)
  have l2 := Re.len_sum_le h [.lookbehind, .content, .refType] (by decide) (by decide)
  have hr : b = str! "_" ∨ b = str! "__" := by
    obtain ⟨r, hr, hm⟩ := Re.get_prov h hb
    have : r = refTypeRe := by simpa [reSimpleRef, Re.capBodies, refTypeRe, Re.opt, Re.plus, Re.chr] using hr
    subst this; exact refType_cases hm
  simp only [List.map_cons, List.map_nil, List.sum_cons, List.sum_nil, Match.len_of_get ha, Match.len_of_get hb] at l2
  simp only [simpleRef, Match.need_ok ha, Match.need_ok hb, bind, Except.bind, pure, Except.pure]
  split
  · rename_i hq
    simp only [Bool.not_eq_true'] at hq
    have := isEmpty_false_length hq
    rw [Match.getD_length] at this
    exact ⟨_, rfl, by simp only [Progress, Match.getD_length]; omega⟩
  · obtain ⟨l, d', e⟩ := refLabel_ok hr a d
    rw [e]
    exact ⟨_, rfl, by simp only [Progress, Match.getD_length]; omega⟩

theorem phraseReference_ok {t : Str} (h : t = str! "_" ∨ t = str! "__") (content uri : Str) (d : Option DocTree) :
    ∃ l d', phraseReference t content uri d = .ok (l, d') := by
  unfold phraseReference
  split
  · exact ⟨_, _, rfl⟩
  · obtain ⟨l, d', e⟩ := refLabel_ok h content d
    rw [e]; exact ⟨_, _, rfl⟩

theorem phraseRef_ok {s : Str} {m : Match} (d : Option DocTree) (h : rePhraseRef.captures s = some m) :
    ∃ o, phraseRef m d = .ok o ∧ Progress m o := by
  obtain ⟨a, ha⟩ := Re.get_always1 h .markupStart (by decide)
  obtain ⟨b, hb⟩ := Re.get_always1 h .content (by decide)
  obtain ⟨c, hc⟩ := Re.get_always1 h .markupEnd (by decide)
  obtain ⟨e, he⟩ := Re.get_always1 h .refType (by decide)
  have l1 := Re.get_minLen h ha 1 (by decide)
  have l2 := Re.len_sum_le h [.lookbehind, .markupStart, .content, .markupEnd, .refType] (by decide) (by decide)
  have l3 := Re.captures_minLen h
  have l4 : 1 ≤ rePhraseRef.minLen := by decide
  have hr : e = str! "_" ∨ e = str! "__" := by
    obtain ⟨r, hr, hm⟩ := Re.get_prov h he
    have : r = refTypeRe := by simpa [rePhraseRef, Re.capBodies, refTypeRe, Re.opt, Re.plus, Re.chr] using hr
    subst this; exact refType_cases hm
  simp only [List.map_cons, List.map_nil, List.sum_cons, List.sum_nil, Match.len_of_get ha, Match.len_of_get hb,
    Match.len_of_get hc, Match.len_of_get he] at l2
  simp only [phraseRef, Match.need_ok ha, Match.need_ok hb, Match.need_ok hc, Match.need_ok he, bind, Except.bind, pure,
    Except.pure]
  split
  · exact ⟨_, rfl, by simp only [Progress, Match.getD_length]; omega⟩
  split
  · rename_i hq
    simp only [Bool.not_eq_true'] at hq
    have := isEmpty_false_length hq
    rw [Match.getD_length] at this
    exact ⟨_, rfl, by simp only [Progress, Match.getD_length]; omega⟩
  · obtain ⟨l, d', e'⟩ := phraseReference_ok hr b (m.getD .embeddedUri) d
    rw [e']
    refine ⟨_, rfl, ?_⟩
    simp only [Progress, Match.getD_length]
    split <;> omega

theorem footnoteRef_ok {s : Str} {m : Match} (d : Option DocTree) (h : reFootnoteRef.captures s = some m) :
    ∃ o, footnoteRef m d = .ok o ∧ Progress m o := by
  obtain ⟨a, ha⟩ := Re.get_always1 h .markupStart (by decide)
  obtain ⟨b, hb⟩ := Re.get_always1 h .content (by decide)
  obtain ⟨c, hc⟩ := Re.get_always1 h .markupEnd (by decide)
  obtain ⟨e, he⟩ := Re.get_always1 h .refType (by decide)
  have l1 := Re.get_minLen h ha 1 (by decide)
  have l2 := Re.len_sum_le h [.lookbehind, .markupStart, .content, .markupEnd, .refType] (by decide) (by decide)
  have hn : ∃ n, footnoteRefNode (m.getD .number) (m.getD .autoNumber) (m.getD .autoNumberLabel) (m.getD .symbol) =
      .ok n := by
    have ne : ∀ g, (∀ p ∈ reFootnoteRef.capBodies, p.1 = g → 1 ≤ p.2.minLen) → (∃ t, m.get g = some t) →
        (m.getD g).isEmpty = false := by
      intro g hg ⟨t, ht⟩
      have := Re.get_minLen h ht 1 hg
      rw [Match.getD, ht]
      cases t with
      | nil => simp at this
      | cons => rfl
    obtain ⟨g, hg, t, ht⟩ := Re.get_always h [.number, .autoNumber, .autoNumberLabel, .symbol] (by decide)
    simp only [List.mem_cons, List.not_mem_nil, or_false] at hg
    unfold footnoteRefNode
    rcases hg with rfl | rfl | rfl | rfl
    all_goals
      have := ne _ (by decide) ⟨t, ht⟩
      repeat' split
      all_goals first
        | exact ⟨_, rfl⟩
        | simp_all
  simp only [List.map_cons, List.map_nil, List.sum_cons, List.sum_nil, Match.len_of_get ha, Match.len_of_get hb,
    Match.len_of_get hc, Match.len_of_get he] at l2
  obtain ⟨n, hn⟩ := hn
  simp only [footnoteRef, Match.need_ok ha, Match.need_ok hb, Match.need_ok hc, Match.need_ok he, bind, Except.bind, pure,
    Except.pure, hn]
  exact ⟨_, rfl, by simp only [Progress, Match.getD_length]; omega⟩

theorem citationRef_ok {s : Str} {m : Match} (d : Option DocTree) (h : reCitationRef.captures s = some m) :
    ∃ o, citationRef m d = .ok o ∧ Progress m o := by
  obtain ⟨a, ha⟩ := Re.get_always1 h .markupStart (by decide)
  obtain ⟨b, hb⟩ := Re.get_always1 h .content (by decide)
  obtain ⟨c, hc⟩ := Re.get_always1 h .markupEnd (by decide)
  have l1 := Re.get_minLen h ha 1 (by decide)
  have l1' := Re.get_minLen h hb 1 (by decide)
  have l2 := Re.len_sum_le h [.lookbehind, .markupStart, .content, .markupEnd] (by decide) (by decide)
  simp only [List.map_cons, List.map_nil, List.sum_cons, List.sum_nil, Match.len_of_get ha, Match.len_of_get hb,
    Match.len_of_get hc] at l2
  simp only [citationRef, Match.need_ok ha, Match.need_ok hb, Match.need_ok hc, bind, Except.bind, pure,
    Except.pure]
  repeat' split
  all_goals exact ⟨_, rfl, by simp only [Progress, Match.getD_length]; omega⟩

theorem substitutionTarget_ok {t : Str} (h : t = [] ∨ t = str! "_" ∨ t = str! "__") (content : Str) (d : Option DocTree) :
    ∃ l d', substitutionTarget t content d = .ok (l, d') := by
  unfold substitutionTarget
  rcases h with rfl | h
  · exact ⟨_, _, rfl⟩
  · split
    · exact ⟨_, _, rfl⟩
    · obtain ⟨l, d', e⟩ := refLabel_ok h content d
      rw [e]; exact ⟨_, _, rfl⟩

theorem substitutionRef_ok {s : Str} {m : Match} (d : Option DocTree) (h : reSubstitutionRef.captures s = some m) :
    ∃ o, substitutionRef m d = .ok o ∧ Progress m o := by
  obtain ⟨a, ha⟩ := Re.get_always1 h .markupStart (by decide)
  obtain ⟨b, hb⟩ := Re.get_always1 h .content (by decide)
  obtain ⟨c, hc⟩ := Re.get_always1 h .markupEnd (by decide)
  have l1 := Re.get_minLen h ha 1 (by decide)
  have l1' := Re.get_minLen h hb 1 (by decide)
  have l2 := Re.len_sum_le h [.lookbehind, .markupStart, .content, .markupEnd, .refType] (by decide) (by decide)
  have hr : m.getD .refType = [] ∨ m.getD .refType = str! "_" ∨ m.getD .refType = str! "__" := by
    unfold Match.getD
    cases he : m.get .refType with
    | none => exact .inl rfl
    | some e =>
      obtain ⟨r, hr, hm⟩ := Re.get_prov h he
      have : r = refTypeRe := by simpa [reSubstitutionRef, Re.capBodies, refTypeRe, Re.opt, Re.plus, Re.chr] using hr
      subst this; exact .inr (refType_cases hm)
  simp only [List.map_cons, List.map_nil, List.sum_cons, List.sum_nil, Match.len_of_get ha, Match.len_of_get hb,
    Match.len_of_get hc] at l2
  simp only [substitutionRef, Match.need_ok ha, Match.need_ok hb, Match.need_ok hc, bind, Except.bind, pure,
    Except.pure]
  split
  · exact ⟨_, rfl, by simp only [Progress, Match.getD_length]; omega⟩
  split
  · rename_i hq
    simp only [Bool.not_eq_true'] at hq
    have := isEmpty_false_length hq
    rw [Match.getD_length] at this
    exact ⟨_, rfl, by simp only [Progress, Match.getD_length]; omega⟩
  · obtain ⟨l, d', e'⟩ := substitutionTarget_ok hr b d
    rw [e']
    exact ⟨_, rfl, by simp only [Progress, Match.getD_length]; omega⟩

theorem uri_ok {s : Str} {m : Match} (d : Option DocTree) (h : reUri.captures s = some m) :
    ∃ o, inlineUri m d = .ok o ∧ Progress m o := by
  obtain ⟨b, hb⟩ := Re.get_always1 h .content (by decide)
  have l1 := Re.get_minLen h hb 1 (by decide +kernel)
  have l2 := Re.len_sum_le h [.lookbehind, .content] (by decide) (by decide +kernel)
  simp only [List.map_cons, List.map_nil, List.sum_cons, List.sum_nil, Match.len_of_get hb] at l2
  have hse : (m.getD .scheme).isEmpty = true → (m.getD .email).isEmpty = false := by
    obtain ⟨g, hg, t, ht⟩ := Re.get_always h [.scheme, .email] (by decide +kernel)
    simp only [List.mem_cons, List.not_mem_nil, or_false] at hg
    intro hs
    rcases hg with rfl | rfl
    · have := Re.get_minLen h ht 1 (by decide +kernel)
      rw [Match.getD, ht] at hs
      cases t with
      | nil => simp at this
      | cons => simp at hs
    · have := Re.get_minLen h ht 1 (by decide +kernel)
      rw [Match.getD, ht]
      cases t with
      | nil => simp at this
      | cons => rfl
  simp only [inlineUri, Match.need_ok hb, bind, Except.bind, pure, Except.pure]
  split
  · rename_i hq
    simp only [Bool.not_eq_true'] at hq
    have := isEmpty_false_length hq
    rw [Match.getD_length] at this
    exact ⟨_, rfl, by simp only [Progress, Match.getD_length]; omega⟩
  split
  · rename_i hs
    rw [if_neg (by simp [hse hs])]
    exact ⟨_, rfl, by simp only [Progress]; omega⟩
  split
  · exact ⟨_, rfl, by simp only [Progress]; omega⟩
  · exact ⟨_, rfl, by simp only [Progress]; omega⟩

end Rustla
