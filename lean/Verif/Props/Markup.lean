import Verif.Lemmas.Refs
import Verif.Lemmas.Roles
import Verif.Lemmas.Urls
import Verif.Lemmas.Mails
import Verif.Lemmas.Behind
/-! # Inline markup (C57) -/
namespace Rustla
open Spec

theorem step_first (d : Option DocTree) {a : Char} {s : Str} (ha : isWs a = false) :
    matchInlineStr d (a :: s) = firstInline d (a :: s)
      [(reStrongEmph, pairedDelimiter .strong), (reEmph, pairedDelimiter .emph),
       (reLiteral, pairedDelimiter .literal), (reInlineTarget, inlineTarget), (rePhraseRef, phraseRef),
       (reInterpretedText, interpretedText), (reFootnoteRef, footnoteRef), (reCitationRef, citationRef),
       (reSimpleRef, simpleRef), (reSubstitutionRef, substitutionRef), (reUri, inlineUri), (reInlineText, inlineText)] := by
  simp only [matchInlineStr, inlineTransitions, List.isEmpty_cons, Bool.false_eq_true, if_false]
  rw [firstInline, no_ws_captures ha]

/-- The transitions for markup, in order. -/
def markupSteps : List (Re × (Match → Option DocTree → Run InlineOut)) :=
  [(reStrongEmph, pairedDelimiter .strong), (reEmph, pairedDelimiter .emph),
   (reLiteral, pairedDelimiter .literal), (reInlineTarget, inlineTarget), (rePhraseRef, phraseRef),
   (reInterpretedText, interpretedText), (reFootnoteRef, footnoteRef), (reCitationRef, citationRef),
   (reSimpleRef, simpleRef), (reSubstitutionRef, substitutionRef), (reUri, inlineUri), (reInlineText, inlineText)]

/-- None of the patterns matches. -/
def SkipAll (s : Str) : List (Re × (Match → Option DocTree → Run InlineOut)) → Prop
  | [] => True
  | t :: ts => t.1.captures s = none ∧ SkipAll s ts

/-- None of the first patterns for markup matches. -/
def Skip (k : Nat) (s : Str) : Prop := SkipAll s (markupSteps.take k)

theorem SkipAll.append (d : Option DocTree) {s : Str} {ts us} (h : SkipAll s ts) : firstInline d s (ts ++ us) = firstInline d s us := by
  induction ts with
  | nil => rfl
  | cons t ts ih =>
    rw [List.cons_append, firstInline, h.1]
    exact ih h.2

theorem SkipAll.mono {s s' : Str} {ts} (h : SkipAll s ts) (hm : ∀ t ∈ ts, t.1.captures s = none → t.1.captures s' = none) : SkipAll s' ts := by
  induction ts with
  | nil => trivial
  | cons t ts ih => exact ⟨hm t (by simp) h.1, ih h.2 (fun t ht => hm t (by simp [ht]))⟩

/-- The transitions whose patterns do not match are passed over. -/
theorem step_skip (d : Option DocTree) {a : Char} {s : Str} {k : Nat} (ha : isWs a = false) (h : Skip k (a :: s)) :
    matchInlineStr d (a :: s) = firstInline d (a :: s) (markupSteps.drop k) := by
  rw [step_first d ha]
  have := h.append d (us := markupSteps.drop k)
  rwa [List.take_append_drop] at this

theorem first_skip (d : Option DocTree) {s : Str} {r : Re} {f} {ts} (h : r.captures s = none) :
    firstInline d s ((r, f) :: ts) = firstInline d s ts := by simp [firstInline, h]

theorem first_take (d : Option DocTree) {s : Str} {r : Re} {f} {ts} {m : Match} {o : InlineOut} (h : r.captures s = some m)
    (hf : f m d = .ok o) : firstInline d s ((r, f) :: ts) = .ok (some o) := by
  simp [firstInline, h, hf, bind, Except.bind, pure, Except.pure]

theorem emph_not_strong {c rest : Str} (h : Between '*' c) : reStrongEmph.captures ('*' :: (c ++ '*' :: rest)) = none := by
  obtain ⟨_, ⟨x, hx, hxw, hne⟩, _⟩ := h
  cases c with
  | nil => cases hx
  | cons a c =>
    have ha : a ≠ '*' := by cases hx; exact hne
    rw [Re.captures_none_iff, reStrong_pair, Re.run]
    have : (Re.opt (.cap .lookbehind (.cls clsLookbehind))).run ('*' :: (a :: c ++ '*' :: rest)) [] =
        [('*' :: (a :: c ++ '*' :: rest), [])] := by
      have : clsLookbehind '*' = false := by decide
      simp [Re.opt, Re.run, this]
    rw [this, List.flatMap_singleton]
    refine run_seq_dead (run_cap_dead ?_)
    simp [Re.lit, Re.chr, Re.run, ha]

theorem emph_skip {c rest : Str} (h : Between '*' c) : Skip 1 ('*' :: (c ++ '*' :: rest)) := ⟨emph_not_strong h, trivial⟩

theorem emph_step (d : Option DocTree) {c rest : Str} (h : Between '*' c) (hr : Closed rest) :
    matchInlineStr d ('*' :: (c ++ '*' :: rest)) =
      .ok (some ([.Emphasis (escapeText c)], ('*' :: (c ++ ['*'])).length, d)) := by
  rw [step_skip d (by decide) (emph_skip h)]
  obtain ⟨w, t, u, hc⟩ := pair_captures (m := '*') (mk := []) (by decide) (by decide) (.inl rfl) h hr
  refine first_take d (m := ⟨w, t, _⟩) (by rw [reEmph_pair]; exact hc) ?_
  rw [pair_node]; rfl

theorem strong_step (d : Option DocTree) {c rest : Str} (h : Between '*' c) (hr : Closed rest) :
    matchInlineStr d ('*' :: '*' :: (c ++ '*' :: '*' :: rest)) =
      .ok (some ([.StrongEmphasis (escapeText c)], ('*' :: '*' :: (c ++ ['*', '*'])).length, d)) := by
  rw [step_first d (by decide)]
  obtain ⟨w, t, u, hc⟩ := pair_captures (m := '*') (mk := ['*']) (by decide) (by decide) (.inr rfl) h hr
  refine first_take d (m := ⟨w, t, _⟩) (by rw [reStrong_pair]; exact hc) ?_
  rw [pair_node]; rfl

theorem not_mem_two {a b m : Char} {s : Str} (ha : a ≠ m) (hb : b ≠ m) : ∀ x ∈ (a :: b :: s).take 2, x ≠ m := by
  intro x hx
  simp only [List.take_succ_cons, List.take_zero, List.mem_cons, List.not_mem_nil, or_false] at hx
  rcases hx with rfl | rfl <;> assumption

theorem lead_strong {s : Str} (h : ∀ x ∈ s.take 2, x ≠ '*') : reStrongEmph.captures s = none :=
  lead_captures (m := '*') (l := ['*']) h
theorem lead_emph {s : Str} (h : ∀ x ∈ s.take 2, x ≠ '*') : reEmph.captures s = none :=
  lead_captures (m := '*') (l := []) h
theorem lead_literal {s : Str} (h : ∀ x ∈ s.take 2, x ≠ '`') : reLiteral.captures s = none :=
  lead_captures (m := '`') (l := ['`']) h
theorem lead_target {s : Str} (h : ∀ x ∈ s.take 2, x ≠ '_') : reInlineTarget.captures s = none :=
  lead_captures (m := '_') (l := ['`']) h
theorem lead_phrase {s : Str} (h : ∀ x ∈ s.take 2, x ≠ '`') : rePhraseRef.captures s = none :=
  lead_captures (m := '`') (l := []) h

theorem literal_skip {s : Str} : Skip 2 ('`' :: '`' :: s) :=
  ⟨lead_strong (not_mem_two (by decide) (by decide)), lead_emph (not_mem_two (by decide) (by decide)), trivial⟩

theorem literal_step (d : Option DocTree) {c rest : Str} (h : Between '`' c) (hr : Closed rest) :
    matchInlineStr d ('`' :: '`' :: (c ++ '`' :: '`' :: rest)) =
      .ok (some ([.Literal (escapeText c)], ('`' :: '`' :: (c ++ ['`', '`'])).length, d)) := by
  rw [step_skip d (by decide) literal_skip]
  obtain ⟨w, t, u, hc⟩ := pair_captures (m := '`') (mk := ['`']) (by decide) (by decide) (.inr rfl) h hr
  refine first_take d (m := ⟨w, t, _⟩) (by rw [reLiteral_pair]; exact hc) ?_
  rw [pair_node]; rfl

theorem role_skip {a : Char} {s : Str} (h1 : a ≠ '`') (h2 : a ≠ '*') (h3 : a ≠ '_') : Skip 5 (':' :: a :: s) :=
  ⟨lead_strong (not_mem_two (by decide) h2), lead_emph (not_mem_two (by decide) h2), lead_literal (not_mem_two (by decide) h1),
    lead_target (not_mem_two (by decide) h3), lead_phrase (not_mem_two (by decide) h1), trivial⟩

theorem role_step (d : Option DocTree) {a : Char} {name c rest : Str} (hw : ∀ c ∈ a :: name, isWs c = false) (hc : ':' ∉ a :: name)
    (h1 : a ≠ '`') (h2 : a ≠ '*') (h3 : a ≠ '_') (h : Marked '`' c) (hr : Closed rest) {n : NodeType}
    (hn : roleNode (a :: name) c = .ok n) :
    matchInlineStr d (':' :: (a :: name ++ ':' :: '`' :: (c ++ '`' :: rest))) =
      .ok (some ([n], (':' :: (a :: name ++ ':' :: '`' :: (c ++ ['`']))).length, d)) := by
  rw [List.cons_append, step_skip d (by decide) (role_skip h1 h2 h3)]
  obtain ⟨w, t, u, hcap⟩ := role_captures (name := a :: name) (by simp) hw hc (by simpa using h1) h hr
  exact first_take d hcap (role_node d (by simp) hn)

theorem Spec.Role.ok {r : Role} {c : Str} (h : r.Ok c) :
    ∃ a l, r.name = a :: l ∧ (∀ c ∈ r.name, isWs c = false) ∧ ':' ∉ r.name ∧ a ≠ '`' ∧ a ≠ '*' ∧ a ≠ '_' := by
  cases r with
  | pep short => cases short <;> exact ⟨_, _, rfl, by decide, by decide, by decide, by decide, by decide⟩
  | rfc short => cases short <;> exact ⟨_, _, rfl, by decide, by decide, by decide, by decide, by decide⟩
  | other name =>
    obtain ⟨_, h2, h3, x, hx, hx'⟩ := h
    cases name with
    | nil => cases hx
    | cons a l =>
      simp only [List.head?_cons, Option.some.injEq] at hx
      subst hx
      simp only [List.mem_cons, List.not_mem_nil, or_false, not_or] at hx'
      exact ⟨a, l, rfl, h3, h2, hx'.1, hx'.2.1, hx'.2.2⟩
  | _ => exact ⟨_, _, rfl, by decide, by decide, by decide, by decide, by decide⟩

theorem Spec.Role.node_ok {r : Role} {c : Str} (h : r.Ok c) : roleNode r.name c = .ok (r.node c) := by
  cases r with
  | pep short =>
    have h : c.length ≤ 4 := h
    cases short <;> simp [roleNode, Role.name, Role.node, pepAddress] <;> exact h
  | rfc short => cases short <;> rfl
  | other name =>
    have h := h.1
    simp only [knownRoles, List.mem_cons, List.not_mem_nil, or_false, not_or] at h
    obtain ⟨h1, h2, h3, h4, h5, h6, h7, h8, h9, h10, h11, h12⟩ := h
    show roleNode name c = _
    unfold roleNode
    rw [if_neg h1, if_neg h3, if_neg h4, if_neg h5, if_neg (not_or.mpr ⟨h10, h9⟩), if_neg (not_or.mpr ⟨h12, h11⟩), if_neg h2,
      if_neg h6, if_neg h7, if_neg h8]
    rfl
  | _ => rfl

/-! ## References -/

theorem head_strong {a : Char} {s : Str} (h : clsLookbehind a = false) (hm : a ≠ '*') : reStrongEmph.captures (a :: s) = none :=
  head_captures (m := '*') (l := ['*']) h hm
theorem head_emph {a : Char} {s : Str} (h : clsLookbehind a = false) (hm : a ≠ '*') : reEmph.captures (a :: s) = none :=
  head_captures (m := '*') (l := []) h hm
theorem head_literal {a : Char} {s : Str} (h : clsLookbehind a = false) (hm : a ≠ '`') : reLiteral.captures (a :: s) = none :=
  head_captures (m := '`') (l := ['`']) h hm
theorem head_target {a : Char} {s : Str} (h : clsLookbehind a = false) (hm : a ≠ '_') : reInlineTarget.captures (a :: s) = none :=
  head_captures (m := '_') (l := ['`']) h hm
theorem head_phrase {a : Char} {s : Str} (h : clsLookbehind a = false) (hm : a ≠ '`') : rePhraseRef.captures (a :: s) = none :=
  head_captures (m := '`') (l := []) h hm
theorem head_footnote {a : Char} {s : Str} (h : clsLookbehind a = false) (hm : a ≠ '[') : reFootnoteRef.captures (a :: s) = none :=
  head_captures (m := '[') (l := []) h hm
theorem head_citation {a : Char} {s : Str} (h : clsLookbehind a = false) (hm : a ≠ '[') : reCitationRef.captures (a :: s) = none :=
  head_captures (m := '[') (l := []) h hm

/-- Interpreted text does not start here. -/
theorem interpreted_dead {a : Char} {s : Str} (h1 : a ≠ ':') (h2 : a ≠ '`') (cs : Caps) :
    (Re.seq (Re.opt (roleMarkerRe .frontRoleMarker .frontRole)) quotedRe).run (a :: s) cs = [] := by
  rw [Re.run, Re.opt, Re.run, colon_dead (by simpa using h1), List.nil_append]
  rw [show Re.eps.run (a :: s) cs = [(a :: s, cs)] from rfl, List.flatMap_singleton]
  exact run_seq_dead (run_cap_dead (run_chr_ne h2 _))

theorem head_interpreted {a : Char} {s : Str} (h : clsLookbehind a = false) (h1 : a ≠ ':') (h2 : a ≠ '`') :
    reInterpretedText.captures (a :: s) = none := by
  rw [Re.captures_none_iff, reInterpreted_eq, Re.run, behind_none h, List.flatMap_singleton]
  exact interpreted_dead h1 h2 _

theorem alnum_skip {a : Char} {s : Str} (ha : a.isAlphanum = true) : Skip 8 (a :: s) := by
  have hne : ∀ m : Char, m.isAlphanum = false → a ≠ m := by rintro m hm rfl; rw [ha] at hm; cases hm
  have hb := alnum_behind ha
  exact ⟨head_strong hb (hne _ (by decide)), head_emph hb (hne _ (by decide)), head_literal hb (hne _ (by decide)),
    head_target hb (hne _ (by decide)), head_phrase hb (hne _ (by decide)), head_interpreted hb (hne _ (by decide)) (hne _ (by decide)),
    head_footnote hb (hne _ (by decide)), head_citation hb (hne _ (by decide)), trivial⟩

/-- The step at a reference. -/
theorem ref_step (d : Option DocTree) {n : Name} {rest : Str} (h : n.Ok ['-', '.', '+', '_']) (hr : Closed rest) :
    matchInlineStr d (n.text ++ '_' :: rest) =
      .ok (some ([.Reference none (.Internal (normalizeRefname n.text))], (n.text ++ ['_']).length, d)) := by
  obtain ⟨w, t, u, hc⟩ := ref_captures h hr
  obtain ⟨a, s, e, ha, _⟩ := Spec.Name.head h ('_' :: rest)
  rw [e] at hc ⊢
  rw [step_skip d (alnum_not_ws ha) (alnum_skip ha)]
  refine first_take d hc ?_
  simp [simpleRef, Match.getD, Match.need, Match.get, refLabel, bind, Except.bind, pure, Except.pure]

/-- A single back quote starts no literal. -/
theorem tick_not_literal {c e : Str} (h : Marked '`' c) : reLiteral.captures ('`' :: (c ++ e)) = none := by
  obtain ⟨hm, ⟨x, hx, hxw⟩, _⟩ := h
  cases c with
  | nil => cases hx
  | cons a c =>
    have ha : a ≠ '`' := by rintro rfl; exact hm (by simp)
    rw [Re.captures_none_iff, reLiteral_pair, Re.run, behind_none (by decide), List.flatMap_singleton]
    refine run_seq_dead (run_cap_dead ?_)
    simp [Re.lit, Re.chr, Re.run, ha]

/-- What comes before references by several words. -/
theorem tick_skip {c e : Str} (h : Marked '`' c) : Skip 4 ('`' :: (c ++ e)) :=
  ⟨head_strong (by decide) (by decide), head_emph (by decide) (by decide), tick_not_literal h, head_target (by decide) (by decide), trivial⟩

/-- The step at a reference by several words. -/
theorem phrase_step (d : Option DocTree) {c rest : Str} (h : Marked '`' c) (ha : '<' ∉ c) (hr : Closed rest) :
    matchInlineStr d ('`' :: (c ++ '`' :: '_' :: rest)) =
      .ok (some ([.Reference (some c) (.Internal (normalizeRefname c))], ('`' :: (c ++ ['`', '_'])).length, d)) := by
  obtain ⟨w, t, u, hc⟩ := phrase_captures h ha hr
  rw [step_skip d (by decide) (tick_skip h)]
  refine first_take d hc ?_
  simp [phraseRef, phraseReference, Match.getD, Match.need, Match.get, refLabel, C35_needs_lookbehind, bind, Except.bind, pure, Except.pure]
  omega

/-- The step at a reference to an address. -/
theorem link_step (d : Option DocTree) {c gap uri rest : Str} (h : Marked '`' c) (ha : '<' ∉ c) (hg : gap ≠ [])
    (hgw : ∀ x ∈ gap, isWs x = true) (hu : Marked '>' uri) (hr : Closed rest) :
    matchInlineStr d ('`' :: (c ++ (gap ++ '<' :: (uri ++ '>' :: '`' :: '_' :: rest)))) =
      .ok (some ([.Reference (some c) (.URI (normalizeRefname uri))],
        ('`' :: (c ++ (gap ++ '<' :: (uri ++ '>' :: '`' :: '_' :: rest.take 1)))).length, d)) := by
  have hc := link_captures h ha hg hgw hu hr
  rw [step_skip d (by decide) (tick_skip h)]
  have hne : uri ≠ [] := by obtain ⟨_, ⟨x, hx, _⟩, _⟩ := hu; rintro rfl; cases hx
  have he : uri.isEmpty = false := by cases uri with | nil => exact absurd rfl hne | cons => rfl
  refine first_take d hc ?_
  simp [phraseRef, phraseReference, Match.getD, Match.need, Match.get, C35_needs_lookbehind, hne, bind, Except.bind, pure, Except.pure]

/-- A citation is not a footnote. -/
theorem cite_not_footnote {n : Name} {rest : Str} (h : n.Ok ['-', '.', '_']) (hd : n.rest = [] → ∃ c ∈ n.first, c.isDigit = false) :
    reFootnoteRef.captures ('[' :: (n.text ++ ']' :: '_' :: rest)) = none := by
  obtain ⟨a, s, e, ha, _⟩ := Spec.Name.head h (']' :: '_' :: rest)
  have hne : ∀ m : Char, m.isAlphanum = false → a ≠ m := by rintro m hm rfl; rw [ha] at hm; cases hm
  have hb : (Re.opt (.cap .lookbehind (.cls clsLookbehind))).run ('[' :: (n.text ++ ']' :: '_' :: rest)) [] =
      [(n.text ++ ']' :: '_' :: rest, [(Grp.lookbehind, ['['])]), ('[' :: (n.text ++ ']' :: '_' :: rest), [])] := by
    have e2 : ('[' :: (n.text ++ ']' :: '_' :: rest)) = ['['] ++ (n.text ++ ']' :: '_' :: rest) := rfl
    simp only [Re.opt, Re.run, show clsLookbehind '[' = true from by decide, if_true, List.map_cons, List.map_nil, List.cons_append, List.nil_append]
    rw [e2, take_sub]
  rw [Re.captures_none_iff, reFootnoteRef, Re.run, hb, List.flatMap_cons, List.flatMap_singleton]
  rw [run_seq_dead (run_cap_dead (by rw [e]; exact run_chr_ne (hne _ (by decide)) _)), List.nil_append]
  rw [Re.run, (show (Re.cap .markupStart (.chr '[')).run ('[' :: (n.text ++ ']' :: '_' :: rest)) [] =
    [(n.text ++ ']' :: '_' :: rest, [(.markupStart, ['['])])] from ?_), List.flatMap_singleton]
  · rw [Re.run, List.flatMap_eq_nil_iff]
    intro q hq
    refine run_seq_dead (run_cap_dead (chr_dead ?_ _))
    obtain ⟨m, q1, e1, h1, rfl⟩ := mem_cap.mp hq
    rcases mem_alt.mp h1 with h1 | h1
    · obtain ⟨m', q2, e2, h2, rfl⟩ := mem_cap.mp h1
      obtain ⟨_, l, _, el, hl⟩ := mem_plus_cls.mp h2
      dsimp only at *
      intro hh
      obtain ⟨v, hv⟩ : ∃ v, q2.1 = ']' :: v := by
        cases hq1 : q2.1 with
        | nil => rw [hq1] at hh; cases hh
        | cons a t => rw [hq1] at hh; cases hh; exact ⟨t, rfl⟩
      rw [hv] at el
      have hdig : ∀ x ∈ l, x.isDigit = true := fun x hx => by rw [← digit_cls]; exact hl x hx
      have hall : ∀ x ∈ l, x.isAlphanum = true := fun x hx => by simp [Char.isAlphanum, hdig x hx]
      obtain ⟨⟨hne, hfa⟩, hrest⟩ := h
      cases hr : n.rest with
      | nil =>
        have et : n.text = n.first := by simp [Name.text, hr]
        rw [et] at el
        have := (takeWhile_run (p := Char.isAlphanum) (w := n.first) (s := ']' :: '_' :: rest) hfa (by intro c hc; cases hc; decide)).1
        have h' := (takeWhile_run (p := Char.isAlphanum) (w := l) (s := ']' :: v) hall (by intro c hc; cases hc; decide)).1
        rw [el, h'] at this
        obtain ⟨c, hc, hcd⟩ := hd hr
        rw [← this] at hc
        rw [hdig c hc] at hcd; cases hcd
      | cons p ps =>
        have et : n.text = n.first ++ p.1 :: (p.2 ++ (ps.map fun p => p.1 :: p.2).flatten) := by simp [Name.text, hr]
        obtain ⟨h1, _, _⟩ := hrest p (by rw [hr]; simp)
        have hp1 : p.1.isAlphanum = false ∧ p.1 ≠ ']' := by
          have : (['-', '.', '_'].all fun c => !c.isAlphanum && c != ']') = true := by decide
          simpa using List.all_eq_true.mp this _ h1
        rw [et, List.append_assoc] at el
        have h0 := takeWhile_run (p := Char.isAlphanum) (w := n.first)
          (s := p.1 :: (p.2 ++ (ps.map fun p => p.1 :: p.2).flatten) ++ ']' :: '_' :: rest) hfa (by intro c hc; cases hc; exact hp1.1)
        have h' := takeWhile_run (p := Char.isAlphanum) (w := l) (s := ']' :: v) hall (by intro c hc; cases hc; decide)
        have hdrop := h0.2
        rw [el, h'.2] at hdrop
        simp only [List.cons_append, List.cons.injEq] at hdrop
        exact hp1.2 hdrop.1.symm
    · exfalso
      rw [e] at h1
      have hash : ∀ cs, (Re.chr '#').run (a :: s) cs = [] := fun cs => run_chr_ne (hne _ (by decide)) _
      have star : ∀ cs, (Re.chr '*').run (a :: s) cs = [] := fun cs => run_chr_ne (hne _ (by decide)) _
      rw [run_alt_dead (run_cap_dead (hash _)) (run_alt_dead (run_seq_dead (hash _)) (run_cap_dead (star _)))] at h1
      cases h1
  · have := First.cap (w := ['[']) (g := .markupStart) (First.single_chr '[' (n.text ++ ']' :: '_' :: rest) [])
    simp [Re.run, Re.chr]

/-- What comes before references to footnotes. -/
theorem bracket_skip {a : Char} {s : Str} (ha : a.isAlphanum = true) : Skip 6 ('[' :: a :: s) := by
  have hne : ∀ m : Char, m.isAlphanum = false → a ≠ m := by rintro m hm rfl; rw [ha] at hm; cases hm
  have hi : reInterpretedText.captures ('[' :: a :: s) = none := by
    rw [Re.captures_none_iff, reInterpreted_eq, Re.run, List.flatMap_eq_nil_iff]
    intro q hq
    rcases behind_cases hq with hq | ⟨b, hq, _⟩
    · rw [hq]; exact interpreted_dead (by decide) (by decide) _
    · rw [← (List.cons.inj hq).2]; exact interpreted_dead (hne _ (by decide)) (hne _ (by decide)) _
  exact ⟨lead_strong (not_mem_two (by decide) (hne _ (by decide))), lead_emph (not_mem_two (by decide) (hne _ (by decide))),
    lead_literal (not_mem_two (by decide) (hne _ (by decide))), lead_target (not_mem_two (by decide) (hne _ (by decide))),
    lead_phrase (not_mem_two (by decide) (hne _ (by decide))), hi, trivial⟩

theorem cite_skip {n : Name} {rest : Str} (h : n.Ok ['-', '.', '_']) (hd : n.rest = [] → ∃ c ∈ n.first, c.isDigit = false) :
    Skip 7 ('[' :: (n.text ++ ']' :: '_' :: rest)) := by
  have hf := cite_not_footnote (rest := rest) h hd
  obtain ⟨a, s, e, ha, _⟩ := Spec.Name.head h (']' :: '_' :: rest)
  rw [e] at hf ⊢
  obtain ⟨h1, h2, h3, h4, h5, h6, _⟩ := bracket_skip (s := s) ha
  exact ⟨h1, h2, h3, h4, h5, h6, hf, trivial⟩

/-- The step at a reference to a citation. -/
theorem cite_step (d : Option DocTree) {n : Name} {rest : Str} (h : n.Ok ['-', '.', '_'])
    (hd : n.rest = [] → ∃ c ∈ n.first, c.isDigit = false) (hr : Closed rest) :
    matchInlineStr d ('[' :: (n.text ++ ']' :: '_' :: rest)) =
      .ok (some ([.CitationReference n.text n.text], ('[' :: (n.text ++ [']', '_'])).length, d)) := by
  obtain ⟨w, t, u, hc⟩ := cite_captures h hr
  have htrim : Rustla.trim n.text = n.text := Spec.Name.trim (by decide) h
  rw [step_skip d (by decide) (cite_skip h hd)]
  refine first_take d hc ?_
  simp [citationRef, Match.getD, Match.need, Match.get, htrim, bind, Except.bind, pure, Except.pure]
  omega

/-- The step at a reference to a footnote. -/
theorem foot_step (d : Option DocTree) {n rest : Str} (hne : n ≠ []) (hn : ∀ c ∈ n, c.isDigit = true) (hr : Closed rest) :
    matchInlineStr d ('[' :: (n ++ ']' :: '_' :: rest)) =
      .ok (some ([.FootnoteReference n n .Manual], ('[' :: (n ++ [']', '_'])).length, d)) := by
  obtain ⟨w, t, u, hc⟩ := footRef_captures hne hn hr
  cases n with
  | nil => exact absurd rfl hne
  | cons a n =>
    rw [List.cons_append] at hc ⊢
    rw [step_skip d (by decide) (bracket_skip (by simp [Char.isAlphanum, hn a (by simp)]))]
    refine first_take d hc ?_
    simp [footnoteRef, footnoteRefNode, behindNodes, Match.getD, Match.need, Match.get, bind, Except.bind, pure, Except.pure]
    omega

/-- A simple reference ends with an underscore. -/
theorem scheme_not_ref {n t : Str} (hn : n ∈ [str! "http", str! "https", str! "ftp"]) : reSimpleRef.captures (n ++ ':' :: '/' :: t) = none := by
  have hu : '_' ∉ n ++ [':', '/'] := (by decide : ∀ n ∈ [str! "http", str! "https", str! "ftp"], '_' ∉ n ++ [':', '/']) n hn
  have hb : ∀ a l, n ++ ':' :: '/' :: t = a :: l → clsLookbehind a = false := by
    intro a l e
    have : ∃ v, n = a :: v := by
      cases n with
      | nil => simp at hn
      | cons x v => cases e; exact ⟨v, rfl⟩
    obtain ⟨v, rfl⟩ := this
    simp only [List.mem_cons, List.cons.injEq, List.not_mem_nil, or_false] at hn
    rcases hn with ⟨rfl, -⟩ | ⟨rfl, -⟩ | ⟨rfl, -⟩ <;> decide
  have e : n ++ ':' :: '/' :: t = (n ++ [':', '/']) ++ t := by simp
  rw [Re.captures_none_iff, reSimpleRef, Re.run, List.flatMap_eq_nil_iff]
  intro q hq
  rcases behind_cases hq with e' | ⟨a, e', ha⟩
  · rw [e', List.eq_nil_iff_forall_not_mem]
    intro p hp
    obtain ⟨q1, h1, h2⟩ := mem_seq.mp hp
    obtain ⟨q2, h3, -⟩ := mem_seq.mp h2
    obtain ⟨m, q1', -, h1', rfl⟩ := mem_cap.mp h1
    obtain ⟨m', q2', -, h3', rfl⟩ := mem_cap.mp h3
    obtain ⟨q3, h5, -⟩ := mem_seq.mp h3'
    obtain ⟨t', e3, rfl⟩ := mem_chr.mp h5
    have hal : Consumes (fun c => c ≠ '/') (.cls clsAlnum) := .cls (by intro c hc; rintro rfl; revert hc; decide)
    have hpl : Consumes (fun c => c ≠ '/') (Re.plus true (.cls clsAlnum)) := .seq hal (.star hal)
    obtain ⟨m1, e4, hm1⟩ := Consumes.seq hpl (Consumes.star (g := true) (.seq (.cls (p := clsSimpleRefSep)
      (by intro c hc; rintro rfl; revert hc; decide)) hpl)) _ _ _ h1'
    simp only at e3
    rw [e3, e] at e4
    rcases List.append_eq_append_iff.mp e4 with ⟨l, h, -⟩ | ⟨l, h, h'⟩
    · exact hm1 '/' (by rw [h]; simp) rfl
    · cases l with
      | nil => exact hm1 '/' (by rw [List.append_nil] at h; rw [← h]; simp) rfl
      | cons x l => simp only [List.cons_append, List.cons.injEq] at h'; exact hu (by rw [h, h'.1]; simp)
  · rw [hb _ _ e'] at ha; cases ha

/-- How an address is matched. -/
theorem url_match {u : Url} {rest : Str} (h : u.Ok) (hr : Cut rest) :
    (∃ a s, u.text ++ rest = a :: s ∧ a.isAlphanum = true) ∧ Skip 10 (u.text ++ rest) ∧
    ∃ w t x y v, reUri.captures (u.text ++ rest) = some ⟨w, t, (.lookahead, x) :: (.content, u.text) :: (.absolute, y) :: (.path, v) ::
      (.authority, '/' :: '/' :: u.host.text) :: (.host, u.host.text) :: (.g6, ['/', '/']) :: (.scheme, u.scheme) :: []⟩ ∧
      (v = [] ∨ v.head? = some '/') ∧ u.scheme ≠ [] := by
  obtain ⟨h1, h2, h3, c, hc, hcd⟩ := h
  obtain ⟨v, hv⟩ : ∃ v, pathText u.segments u.slash = v ++ [c] := by
    rcases List.eq_nil_or_concat (pathText u.segments u.slash) with h0 | ⟨l, b, h0⟩
    · rw [h0] at hc; cases hc
    · rw [h0, List.concat_eq_append] at hc ⊢
      simp only [List.getLast?_concat, Option.some.injEq] at hc
      exact ⟨l, by rw [hc]⟩
  have hchars : ∀ s ∈ u.segments, s ≠ [] ∧ ∀ x ∈ s, clsPathChar2 x = true := by
    intro s hs
    refine ⟨(h3 s hs).1, fun x hx => ?_⟩
    rcases (h3 s hs).2 x hx with h | h
    · exact alnum_cases (P := clsPathChar2) (by decide +kernel) h
    · have : ∀ c ∈ ['~', '_', '.'], clsPathChar2 c = true := by decide
      exact this x h
  have hsuf : clsUriSuffix c = true := by
    have hm : c ∈ pathText u.segments u.slash := by rw [hv]; simp
    rcases List.mem_append.mp hm with hm | hm
    · obtain ⟨l, hl, hm⟩ := List.mem_flatten.mp hm
      obtain ⟨s, hs, rfl⟩ := List.mem_map.mp hl
      rcases List.mem_cons.mp hm with rfl | hm
      · decide
      · rcases (h3 s hs).2 c hm with h | h
        · exact alnum_cases (P := clsUriSuffix) (by decide +kernel) h
        · simp only [List.mem_cons, List.not_mem_nil, or_false, hcd] at h
          rcases h with rfl | rfl <;> decide
    · have : c = '/' := by
        cases hsl : u.slash <;> rw [hsl] at hm <;> simpa using hm
      rw [this]; decide
  obtain ⟨w, t, x, y, hcap⟩ := url_captures h1 h2 hchars hv hsuf hr
  obtain ⟨a, s, e, ha⟩ : ∃ a s, u.text ++ rest = a :: s ∧ a.isAlphanum = true := by
    have hn := h1
    simp only [List.mem_cons, List.not_mem_nil, or_false] at hn
    unfold Url.text
    rcases hn with e | e | e <;> rw [e] <;> exact ⟨_, _, rfl, by decide⟩
  have hne : ∀ m : Char, m.isAlphanum = false → a ≠ m := by rintro m hm rfl; rw [ha] at hm; cases hm
  have hb := alnum_behind ha
  have hsr : reSimpleRef.captures (u.text ++ rest) = none := by
    have : u.text ++ rest = u.scheme ++ ':' :: '/' :: ('/' :: (u.host.text ++ pathText u.segments u.slash) ++ rest) := by simp [Url.text]
    rw [this]; exact scheme_not_ref h1
  have hsub : reSubstitutionRef.captures (a :: s) = none := head_captures (m := '|') (l := []) hb (hne _ (by decide))
  have hpath : v = [] ∨ v.head? = some '/' := by
    cases v with
    | nil => exact .inl rfl
    | cons b v =>
      refine .inr ?_
      cases hss : u.segments with
      | nil => cases hsl : u.slash <;> rw [hss, hsl] at hv <;> simp [pathText] at hv
      | cons s ss =>
        rw [hss] at hv
        simp only [pathText, List.map_cons, List.flatten_cons, List.cons_append, List.cons.injEq] at hv
        rw [← hv.1]; rfl
  have hscheme : u.scheme ≠ [] := by
    have : ∀ s ∈ [str! "http", str! "https", str! "ftp"], s ≠ [] := by decide
    exact this _ h1
  have htext : u.scheme ++ ':' :: '/' :: '/' :: (u.host.text ++ pathText u.segments u.slash) = u.text := rfl
  rw [htext] at hcap
  refine ⟨⟨a, s, e, ha⟩, ?_, w, t, x, y, v, hcap, hpath, hscheme⟩
  rw [e] at hsr ⊢
  obtain ⟨g1, g2, g3, g4, g5, g6, g7, g8, _⟩ := alnum_skip (s := s) ha
  exact ⟨g1, g2, g3, g4, g5, g6, g7, g8, hsr, hsub, trivial⟩

/-- The step at an address. -/
theorem url_step (d : Option DocTree) {u : Url} {rest : Str} (h : u.Ok) (hr : Cut rest) :
    matchInlineStr d (u.text ++ rest) = .ok (some ([.Reference none (.URI u.text)], u.text.length, d)) := by
  obtain ⟨⟨a, s, e, ha⟩, hskip, w, t, x, y, v, hcap, hpath, hscheme⟩ := url_match h hr
  rw [e] at hcap hskip ⊢
  rw [step_skip d (alnum_not_ws ha) hskip]
  refine first_take d hcap ?_
  rcases hpath with rfl | hp
  · simp [inlineUri, Match.getD, Match.need, Match.get, hscheme, bind, Except.bind, pure, Except.pure]
  · simp [inlineUri, Match.getD, Match.need, Match.get, hscheme, hp, bind, Except.bind, pure, Except.pure]

/-- How an e-mail address is matched. -/
theorem mail_match {m : Mail} {rest : Str} (h : m.Ok) (hr : Cut rest) :
    (∃ a s, m.text ++ rest = a :: s ∧ a.isAlphanum = true) ∧ Skip 10 (m.text ++ rest) ∧
    ∃ w t x, reUri.captures (m.text ++ rest) = some ⟨w, t, (.lookahead, x) :: (.content, m.text) :: (.email, m.text) :: []⟩ := by
  obtain ⟨a, s, e, ha⟩ : ∃ a s, m.text ++ rest = a :: s ∧ a.isAlphanum = true := by
    obtain ⟨a, s, e, ha⟩ := name_text_head h.first
    exact ⟨a, s ++ (m.more.map fun n => '.' :: n.text).flatten ++ '@' :: m.host ++ rest, by simp [Mail.text, Mail.box, e], ha⟩
  have hne : ∀ m : Char, m.isAlphanum = false → a ≠ m := by rintro m hm rfl; rw [ha] at hm; cases hm
  have hsr : reSimpleRef.captures (m.text ++ rest) = none := by
    have : m.text ++ rest = m.box ++ '@' :: (m.host ++ rest) := by simp [Mail.text]
    rw [this]; exact mail_simple h _
  have hsub : reSubstitutionRef.captures (a :: s) = none := head_captures (m := '|') (l := []) (alnum_behind ha) (hne _ (by decide))
  refine ⟨⟨a, s, e, ha⟩, ?_, mail_captures h hr⟩
  rw [e] at hsr ⊢
  obtain ⟨g1, g2, g3, g4, g5, g6, g7, g8, _⟩ := alnum_skip (s := s) ha
  exact ⟨g1, g2, g3, g4, g5, g6, g7, g8, hsr, hsub, trivial⟩

theorem mail_ne (m : Mail) : m.text ≠ [] := by simp [Mail.text]

/-- The step at an e-mail address. -/
theorem mail_step (d : Option DocTree) {m : Mail} {rest : Str} (h : m.Ok) (hr : Cut rest) :
    matchInlineStr d (m.text ++ rest) = .ok (some ([.Reference none (.EMail m.text)], m.text.length, d)) := by
  obtain ⟨⟨a, s, e, ha⟩, hskip, w, t, x, hcap⟩ := mail_match h hr
  rw [e] at hcap hskip ⊢
  rw [step_skip d (alnum_not_ws ha) hskip]
  refine first_take d hcap ?_
  simp [inlineUri, Match.getD, Match.need, Match.get, mail_ne, bind, Except.bind, pure, Except.pure]

/-! ## Markup behind an opening character -/

theorem bracket_facts {c : Char} (hc : c ∈ openBrackets) :
    clsLookbehind c = true ∧ clsUriLookbehind c = true ∧ isWs c = false ∧ clsAlnum c = false ∧ c ∉ ['*', '`', '_', '[', '|', ':'] ∧
      escapeText [c] = [c] := by
  have : ∀ c ∈ openBrackets, clsLookbehind c = true ∧ clsUriLookbehind c = true ∧ isWs c = false ∧ clsAlnum c = false ∧
      c ∉ ['*', '`', '_', '[', '|', ':'] ∧ escapeText [c] = [c] := by decide +kernel
  exact this c hc

/-- Which texts an opening character quotes. -/
theorem bracket_quotes {c : Char} (hc : c ∈ openBrackets) {v : Str} (h : ∀ x, v.head? = some x → x ≠ counterpart c) : quotationMatches [c] v = false := by
  have pairs : ∀ c ∈ openBrackets, (∀ oc ∈ openers.zip closers, oc.1 = c.toNat → oc.2 = (counterpart c).toNat) ∧
      ∀ n ∈ delimiters, n = c.toNat → n = (counterpart c).toNat := by decide +kernel
  obtain ⟨h1, h2⟩ := pairs c hc
  have key : ∀ n, startsWithCp v n = true → n ≠ (counterpart c).toNat := by
    intro n hn e
    unfold startsWithCp at hn
    cases hv : v.head? with
    | none => rw [hv] at hn; cases hn
    | some x =>
      rw [hv] at hn
      have : x.toNat = n := by simpa using hn
      rw [e] at this
      exact h x hv (Char.toNat_inj.mp this)
  have ends : ∀ n, endsWithCp [c] n = true → n = c.toNat := by
    intro n hn
    have : c.toNat = n := by simpa [endsWithCp] using hn
    exact this.symm
  unfold quotationMatches
  rw [Bool.or_eq_false_iff, List.any_eq_false, List.any_eq_false]
  refine ⟨fun oc ho hm => ?_, fun n ho hm => ?_⟩
  · obtain ⟨a, b⟩ := Bool.and_eq_true_iff.mp hm
    exact key _ b (h1 oc ho (ends _ a))
  · obtain ⟨a, b⟩ := Bool.and_eq_true_iff.mp hm
    exact key _ b (h2 n ho (ends _ a))

theorem cls_first {p : Char → Bool} {c : Char} (h : p c = true) (s : Str) : First (.cls p) (c :: s) [] (s, []) := First.cls h s []

theorem cls_rest {p : Char → Bool} {c : Char} {s : Str} : ∀ q ∈ (Re.cls p).run (c :: s) [], q.1 = s := by
  intro q hq
  obtain ⟨_, _, e, _, rfl⟩ := mem_cls.mp hq
  cases e; rfl

/-- Before an opening character, the patterns for markup do not match what they do not match behind it. -/
theorem bracket_dead {c : Char} (hc : c ∈ openBrackets) {s : Str} : ∀ t ∈ markupSteps.take 10, t.1.captures s = none → t.1.captures (c :: s) = none := by
  obtain ⟨_, _, _, hal, hm, _⟩ := bracket_facts hc
  simp only [List.mem_cons, List.not_mem_nil, or_false, not_or] at hm
  obtain ⟨m1, m2, m3, m4, m5, m6⟩ := hm
  intro t ht h
  simp only [markupSteps, List.take_succ_cons, List.take_zero, List.mem_cons, List.not_mem_nil, or_false] at ht
  rcases ht with rfl | rfl | rfl | rfl | rfl | rfl | rfl | rfl | rfl | rfl
  · exact behind_skip (L := .cls clsLookbehind) cls_rest h (run_seq_dead (run_cap_dead (run_lit_ne m1 _)))
  · exact behind_skip (L := .cls clsLookbehind) cls_rest h (run_seq_dead (run_cap_dead (run_chr_ne m1 _)))
  · exact behind_skip (L := .cls clsLookbehind) cls_rest h (run_seq_dead (run_cap_dead (run_lit_ne m2 _)))
  · exact behind_skip (L := .cls clsLookbehind) cls_rest h (run_seq_dead (run_cap_dead (run_lit_ne m3 _)))
  · exact behind_skip (L := .cls clsLookbehind) cls_rest h (run_seq_dead (run_cap_dead (run_chr_ne m2 _)))
  · exact behind_skip (L := .cls clsLookbehind) cls_rest h (interpreted_dead m6 m2 _)
  · exact behind_skip (L := .cls clsLookbehind) cls_rest h (run_seq_dead (run_cap_dead (run_chr_ne m4 _)))
  · exact behind_skip (L := .cls clsLookbehind) cls_rest h (run_seq_dead (run_cap_dead (run_chr_ne m4 _)))
  · exact behind_skip (L := .cls clsLookbehind) cls_rest h (run_seq_dead (run_cap_dead (run_seq_dead (run_seq_dead (by simp [Re.run, hal])))))
  · exact behind_skip (L := .cls clsLookbehind) cls_rest h (run_seq_dead (run_cap_dead (run_chr_ne m5 _)))

theorem opener_skip {c : Char} (hc : c ∈ openBrackets) {k : Nat} (hk : k ≤ 10) {s : Str} (h : Skip k s) : Skip k (c :: s) := by
  refine h.mono fun t ht => bracket_dead hc t ?_
  have : (markupSteps.take 10).take k = markupSteps.take k := by rw [List.take_take, Nat.min_eq_left hk]
  rw [← this] at ht
  exact List.mem_of_mem_take ht

/-- The patterns for markup start with an optional character before the markup. -/
theorem steps_behind {c : Char} (hc : c ∈ openBrackets) : ∀ t ∈ markupSteps.take 11, ∃ L X, t.1 = behindRe L X ∧ ∀ s, First L (c :: s) [] (s, []) := by
  obtain ⟨h1, h2, h3, _, _, _⟩ := bracket_facts hc
  intro t ht
  simp only [markupSteps, List.take_succ_cons, List.take_zero, List.mem_cons, List.not_mem_nil, or_false] at ht
  rcases ht with rfl | rfl | rfl | rfl | rfl | rfl | rfl | rfl | rfl | rfl | rfl
  all_goals first
    | exact ⟨.cls clsLookbehind, _, rfl, cls_first h1⟩
    | exact ⟨.alt (.cls isWs) (.cls clsUriLookbehind), _, rfl, fun s => .right (by simp [Re.run, h3]) (cls_first h2 s)⟩

/-- Markup that is matched behind an opening character is matched together with it. -/
theorem opener_match (d : Option DocTree) {c : Char} (hc : c ∈ openBrackets) {k : Nat} (hk : k ≤ 10) {s : Str} {r : Re}
    {f : Match → Option DocTree → Run InlineOut} {ts} (hd : markupSteps.drop k = (r, f) :: ts) (hs : Skip k s) {w t : Str} {cs : Caps}
    (hcap : r.captures s = some ⟨w, t, cs⟩) (hl : cs.find? (·.1 = Grp.lookbehind) = none) {o : InlineOut}
    (ho : ∀ w, f ⟨w, t, cs ++ [(.lookbehind, [c])]⟩ d = .ok o) : matchInlineStr d (c :: s) = .ok (some o) := by
  have hmem : (r, f) ∈ markupSteps.take 11 := by
    have hg : markupSteps[k]? = some (r, f) := by rw [← List.head?_drop, hd]; rfl
    have : (markupSteps.take 11)[k]? = some (r, f) := by rw [List.getElem?_take_of_lt (by omega)]; exact hg
    exact List.mem_of_getElem? this
  obtain ⟨L, X, e, hL⟩ := steps_behind hc _ hmem
  dsimp only at e
  subst e
  obtain ⟨w', hw⟩ := behind_take (hL s) hcap (by simp only [Match.get, hl, Option.map_none])
  rw [step_skip d (bracket_facts hc).2.2.1 (opener_skip hc hk hs), hd]
  exact first_take d hw (ho _)

/-! ## Texts made of pieces -/

theorem piecesSource_cons (p : Piece) (ps : List Piece) : piecesSource (p :: ps) = p.source ++ piecesSource ps := rfl

theorem pieces_ne {p : Piece} (h : p.Ok) : p.source ≠ [] := by
  cases p <;> simp_all [Piece.source, Piece.Ok, Url.text, mail_ne]

/-- What the first character of a piece is like. -/
def HeadOk (a : Char) : Piece → Prop
  | .space _ => isWs a = true
  | _ => isWs a = false

/-- The first character of a piece. -/
theorem piece_head {p : Piece} (h : p.Ok) (s : Str) : ∃ a t, p.source ++ s = a :: t ∧ HeadOk a p := by
  cases p with
  | space w =>
    cases w with
    | nil => exact absurd rfl h.1
    | cons a w => exact ⟨a, w ++ s, rfl, h.2 a (by simp)⟩
  | word w =>
    cases w with
    | nil => exact absurd rfl h.1
    | cons a w => exact ⟨a, w ++ s, rfl, h.2.1 a (by simp)⟩
  | lead w =>
    cases w with
    | nil => exact ⟨':', s, rfl, (by decide : isWs _ = false)⟩
    | cons a w => exact ⟨a, w ++ [':'] ++ s, rfl, h.1 a (by simp)⟩
  | ref n =>
    obtain ⟨a, t, e, ha, _⟩ := Spec.Name.head h ('_' :: s)
    exact ⟨a, t, by rw [← e]; simp [Piece.source], alnum_not_ws ha⟩
  | emph c => exact ⟨'*', c ++ ['*'] ++ s, by simp [Piece.source], (by decide : isWs _ = false)⟩
  | strong c => exact ⟨'*', '*' :: (c ++ ['*', '*'] ++ s), by simp [Piece.source], (by decide : isWs _ = false)⟩
  | literal c => exact ⟨'`', '`' :: (c ++ ['`', '`'] ++ s), by simp [Piece.source], (by decide : isWs _ = false)⟩
  | role r c => exact ⟨':', r.name ++ ':' :: '`' :: (c ++ ['`'] ++ s), by simp [Piece.source], (by decide : isWs _ = false)⟩
  | phrase c => exact ⟨'`', c ++ ['`', '_'] ++ s, by simp [Piece.source], (by decide : isWs _ = false)⟩
  | link c gap u next =>
    exact ⟨'`', c ++ (gap ++ '<' :: (u ++ '>' :: '`' :: '_' :: next)) ++ s, by simp [Piece.source], (by decide : isWs _ = false)⟩
  | cite n => exact ⟨'[', n.text ++ [']', '_'] ++ s, by simp [Piece.source], (by decide : isWs _ = false)⟩
  | foot n => exact ⟨'[', n ++ [']', '_'] ++ s, by simp [Piece.source], (by decide : isWs _ = false)⟩
  | url u =>
    have : ∀ s ∈ [str! "http", str! "https", str! "ftp"], ∃ a t, s = a :: t ∧ isWs a = false := by
      intro s hs
      simp only [List.mem_cons, List.not_mem_nil, or_false] at hs
      rcases hs with rfl | rfl | rfl <;> exact ⟨_, _, rfl, by decide⟩
    obtain ⟨a, t, e, ha⟩ := this _ h.1
    exact ⟨a, t ++ ':' :: '/' :: '/' :: (u.host.text ++ pathText u.segments u.slash) ++ s, by simp [Piece.source, Url.text, e], ha⟩
  | mail m =>
    obtain ⟨a, t, e, ha⟩ := name_text_head h.first
    exact ⟨a, t ++ (m.more.map fun n => '.' :: n.text).flatten ++ '@' :: m.host ++ s, by simp [Piece.source, Mail.text, Mail.box, e], alnum_not_ws ha⟩
  | opener c => exact ⟨c, s, rfl, (bracket_facts h).2.2.1⟩

/-- What follows a word. -/
theorem pieces_atEnd {p : Piece} {ps : List Piece} (hp : match p with | .word _ => True | .lead _ => True | _ => False)
    (hf : p.followed ps.head?) (h : Pieces ps) : AtEnd (piecesSource ps) := by
  cases ps with
  | nil => intro c hc; cases hc
  | cons p' ps =>
    obtain ⟨a, t, e, hk⟩ := piece_head h.1 (piecesSource ps)
    rw [piecesSource_cons, e]
    intro c hc
    cases hc
    cases p' with
    | space _ => exact hk
    | _ => exfalso; cases p <;> first | exact hp | exact hf

theorem wild_alnum {b : Str} (h : b ∈ wildEnds) : b ≠ [] ∧ ∀ c ∈ b, c.isAlphanum = true := by
  have : ∀ b ∈ wildEnds, b ≠ [] ∧ ∀ c ∈ b, c.isAlphanum = true := by decide
  exact this b h

theorem dry_head {a : Char} {t : Str} (h : a.isAlphanum = false) : Dry (a :: t) := by
  intro b v e hw
  obtain ⟨hb, hal⟩ := wild_alnum hw
  cases b with
  | nil => exact absurd rfl hb
  | cons x b =>
    cases e
    have := hal a (by simp)
    rw [h] at this; cases this

theorem dry_run {f : Str} {y : Char} {t : Str} (hf : ∀ c ∈ f, c.isAlphanum = true) (hy : y.isAlphanum = false) (hc : y ≠ ':') :
    Dry (f ++ y :: t) := by
  intro b v e hw
  obtain ⟨hb, hal⟩ := wild_alnum hw
  have h1 := (takeWhile_run (p := Char.isAlphanum) (w := f) (s := y :: t) hf (by intro c hc; cases hc; exact hy)).2
  have h2 := (takeWhile_run (p := Char.isAlphanum) (w := b) (s := ':' :: v) hal (by intro c hc; cases hc; decide)).2
  rw [e, h2] at h1
  cases h1
  exact absurd rfl hc

/-- A name and a colon at the start of a text. -/
theorem pieces_dry {ps : List Piece} (h : Pieces ps) : Dry (piecesSource ps) := by
  have nal : ∀ {b : Str}, (∀ c ∈ b, c.isAlphanum = true) → ∀ c ∈ b, isWs c = false := fun h c hc => alnum_not_ws (h c hc)
  cases ps with
  | nil => intro b v e; simp [piecesSource] at e
  | cons p ps =>
    obtain ⟨hok, hf, hps⟩ := h
    rw [piecesSource_cons]
    cases p with
    | space w =>
      cases w with
      | nil => exact absurd rfl hok.1
      | cons a w =>
        refine dry_head ?_
        by_contra hc
        have := alnum_not_ws (by simpa using hc)
        rw [hok.2 a (by simp)] at this; cases this
    | word w =>
      intro b v e hw
      obtain ⟨_, hal⟩ := wild_alnum hw
      obtain ⟨v', e1, _⟩ := solid_split (pieces_atEnd (p := .word w) trivial hf hps) e (nal hal) (by decide)
      exact absurd hw (hok.2.2.colons.split (show w = _ from e1)).2.2.2
    | lead w =>
      intro b v e hw
      obtain ⟨_, hal⟩ := wild_alnum hw
      have hat := pieces_atEnd (p := .lead w) trivial hf hps
      obtain ⟨v', e1, rfl⟩ := solid_split hat e (nal hal) (by decide)
      have : v' = [] := by
        rcases List.append_eq_append_iff.mp (show w ++ [':'] = b ++ ':' :: v' from e1) with ⟨u, rfl, e2⟩ | ⟨u, rfl, e2⟩
        · cases u with
          | nil => simpa using e2.symm
          | cons y u => simp at e2
        · cases u with
          | nil => simpa using e2
          | cons y u =>
            simp only [List.cons_append, List.cons.injEq] at e2
            obtain ⟨rfl, rfl⟩ := e2
            exact absurd hw (hok.2.colons.split rfl).2.2.2
      rw [this]; exact hat
    | ref n =>
      cases hr : n.rest with
      | nil =>
        have : (Piece.ref n).source ++ piecesSource ps = n.first ++ '_' :: piecesSource ps := by simp [Piece.source, Name.text, hr]
        rw [this]
        exact dry_run hok.1.2 (by decide) (by decide)
      | cons q qs =>
        have : (Piece.ref n).source ++ piecesSource ps =
            n.first ++ q.1 :: (q.2 ++ (qs.map fun p => p.1 :: p.2).flatten ++ '_' :: piecesSource ps) := by
          simp [Piece.source, Name.text, hr]
        rw [this]
        have hq : q.1.isAlphanum = false ∧ q.1 ≠ ':' := by
          have : (['-', '.', '+', '_'].all fun c => !c.isAlphanum && c != ':') = true := by decide
          simpa using List.all_eq_true.mp this _ (hok.2 q (by rw [hr]; simp)).1
        exact dry_run hok.1.2 hq.1 hq.2
    | url u =>
      intro b v e hw
      obtain ⟨_, hal⟩ := wild_alnum hw
      have hu : ∀ s ∈ [str! "http", str! "https", str! "ftp"], (∀ c ∈ s, c.isAlphanum = true) ∧ s ∉ wildEnds := by decide
      have hs := hu _ hok.1
      have e1 : (Piece.url u).source ++ piecesSource ps = u.scheme ++ ':' :: ('/' :: '/' :: (u.host.text ++ pathText u.segments u.slash) ++ piecesSource ps) := by
        simp [Piece.source, Url.text]
      have h1 := takeWhile_run (p := Char.isAlphanum) (w := u.scheme) (s := ':' :: ('/' :: '/' :: (u.host.text ++ pathText u.segments u.slash) ++ piecesSource ps))
        hs.1 (by intro c hc; cases hc; decide)
      have h2 := takeWhile_run (p := Char.isAlphanum) (w := b) (s := ':' :: v) hal (by intro c hc; cases hc; decide)
      rw [← e1, e, h2.1] at h1
      exact absurd (h1.1 ▸ hw) hs.2
    | mail m =>
      have hsep : ∀ {q : Char}, q ∈ ['-', '_'] → q.isAlphanum = false ∧ q ≠ ':' := by
        intro q hq
        have : (['-', '_'].all fun c => !c.isAlphanum && c != ':') = true := by decide
        simpa using List.all_eq_true.mp this _ hq
      cases hr : m.first.rest with
      | nil =>
        cases hm : m.more with
        | nil =>
          have : (Piece.mail m).source ++ piecesSource ps = m.first.first ++ '@' :: (m.host ++ piecesSource ps) := by
            simp [Piece.source, Mail.text, Mail.box, Name.text, hr, hm]
          rw [this]
          exact dry_run hok.first.1.2 (by decide) (by decide)
        | cons n l =>
          have : (Piece.mail m).source ++ piecesSource ps = m.first.first ++ '.' :: (n.text ++ (l.map fun n => '.' :: n.text).flatten ++ '@' :: (m.host ++ piecesSource ps)) := by
            rw [Piece.source, Mail.text, Mail.box, show m.first.text = m.first.first by simp [Name.text, hr], hm]
            simp
          rw [this]
          exact dry_run hok.first.1.2 (by decide) (by decide)
      | cons q qs =>
        have : (Piece.mail m).source ++ piecesSource ps = m.first.first ++ q.1 :: (q.2 ++ (qs.map fun p => p.1 :: p.2).flatten ++
            (m.more.map fun n => '.' :: n.text).flatten ++ '@' :: (m.host ++ piecesSource ps)) := by
          rw [Piece.source, Mail.text, Mail.box, show m.first.text = m.first.first ++ q.1 :: (q.2 ++ (qs.map fun p => p.1 :: p.2).flatten) by
            simp [Name.text, hr]]
          simp
        rw [this]
        obtain ⟨h1, h2⟩ := hsep (hok.first.2 q (by rw [hr]; simp)).1
        exact dry_run hok.first.1.2 h1 h2
    | opener c =>
      refine dry_head ?_
      have : ∀ c ∈ openBrackets, c.isAlphanum = false := by decide
      exact this c hok
    | _ => exact dry_head (by decide)

/-- What follows white space that follows a word. -/
theorem pieces_dry_tail {ps : List Piece} (h : Pieces ps) (hat : AtEnd (piecesSource ps)) :
    ∀ x t, piecesSource ps = x :: t → Dry t := by
  intro x t e
  cases ps with
  | nil => cases e
  | cons p ps =>
    obtain ⟨hok, hf, hps⟩ := h
    obtain ⟨a, t', e', hk⟩ := piece_head hok (piecesSource ps)
    rw [piecesSource_cons] at e hat
    have : isWs a = true := hat a (by rw [e']; rfl)
    cases p with
    | space w =>
      cases w with
      | nil => exact absurd rfl hok.1
      | cons b w =>
        cases e
        cases w with
        | nil => exact pieces_dry hps
        | cons y w =>
          refine dry_head ?_
          by_contra hc
          have := alnum_not_ws (by simpa using hc)
          rw [hok.2 y (by simp)] at this; cases this
    | _ => rw [show isWs a = false from hk] at this; cases this

/-- What follows markup. -/
theorem pieces_closed {p : Piece} {ps : List Piece}
    (hp : match p with | .space _ => False | .word _ => False | .lead _ => False | .link .. => False | .url _ => False | .mail _ => False | .opener _ => False | _ => True)
    (hf : p.followed ps.head?) (h : Pieces ps) : Closed (piecesSource ps) := by
  cases ps with
  | nil => intro c hc; cases hc
  | cons p' ps =>
    intro c hc
    obtain ⟨a, t, e, hk⟩ := piece_head h.1 (piecesSource ps)
    cases p' with
    | space _ =>
      rw [piecesSource_cons, e] at hc
      cases hc
      exact .inl hk
    | word w =>
      refine .inr (.inl ?_)
      have : ∃ c, w.head? = some c ∧ c ∈ closing := by cases p <;> first | exact hp.elim | exact hf
      obtain ⟨c', hc', hcl⟩ := this
      cases w with
      | nil => cases hc'
      | cons b w => cases hc'; cases hc; exact hcl
    | lead w =>
      have : ∀ c, w.head? = some c → c ∈ closing := by cases p <;> first | exact hp.elim | exact hf
      cases w with
      | nil =>
        cases hc
        exact .inr (.inr ⟨rfl, pieces_atEnd (p := .lead []) trivial h.2.1 h.2.2⟩)
      | cons b w => cases hc; exact .inr (.inl (this _ rfl))
    | _ => exfalso; cases p <;> first | exact hp | exact hf

/-- What follows an address. -/
theorem pieces_cut {u : Url} {ps : List Piece} (hf : (Piece.url u).followed ps.head?) (h : Pieces ps) : Cut (piecesSource ps) := by
  cases ps with
  | nil => exact .inl ⟨fun c hc => (by simp [piecesSource] at hc), fun c hc => (by simp [piecesSource] at hc)⟩
  | cons p' ps =>
    obtain ⟨a, t, e, hk⟩ := piece_head h.1 (piecesSource ps)
    rw [piecesSource_cons]
    cases p' with
    | space w =>
      rw [e]
      refine .inl ⟨fun c hc => (by cases hc; exact .inl hk), fun c hc => ?_⟩
      cases hc
      intro hm
      have : ∀ c ∈ ['-', '.', '/', '?'], isWs c = false := by decide
      have := this a hm
      rw [show isWs a = true from hk] at this; cases this
    | word w =>
      have hat := pieces_atEnd (p := .word w) trivial h.2.1 h.2.2
      rcases (show w = ['.'] ∨ ∃ c, w.head? = some c ∧ c ∈ closing ∧ c ∉ ['-', '.', '/', '?'] from hf) with rfl | ⟨c, hc, h1, h2⟩
      · exact .inr ⟨_, rfl, hat⟩
      · cases w with
        | nil => cases hc
        | cons b w =>
          cases hc
          exact .inl ⟨fun x hx => (by cases hx; exact .inr (.inl h1)), fun x hx => (by cases hx; exact h2)⟩
    | lead w =>
      have hat := pieces_atEnd (p := .lead w) trivial h.2.1 h.2.2
      have hw : ∀ c, w.head? = some c → c ∈ closing ∧ c ∉ ['-', '.', '/', '?'] := hf
      cases w with
      | nil => exact .inl ⟨fun x hx => (by cases hx; exact .inr (.inr ⟨rfl, hat⟩)), fun x hx => (by cases hx; decide)⟩
      | cons b w =>
        exact .inl ⟨fun x hx => (by cases hx; exact .inr (.inl (hw _ rfl).1)), fun x hx => (by cases hx; exact (hw _ rfl).2)⟩
    | _ => exact absurd hf (by simp [Piece.followed])

/-- What follows an e-mail address. -/
theorem pieces_cut_mail {m : Mail} {ps : List Piece} (hf : (Piece.mail m).followed ps.head?) (h : Pieces ps) : Cut (piecesSource ps) := by
  refine pieces_cut (u := ⟨[], ⟨[], []⟩, [], false⟩) ?_ h
  cases hp : ps.head? with
  | none => trivial
  | some p => rw [hp] at hf; cases p <;> exact hf

/-- The character that a reference to an address swallows. -/
theorem link_closed {c gap u next : Str} {ps : List Piece} (h : (Piece.link c gap u next).Ok)
    (hf : (Piece.link c gap u next).followed ps.head?) : Closed (next ++ piecesSource ps) ∧ (next ++ piecesSource ps).take 1 = next := by
  obtain ⟨_, _, _, hl, hn⟩ := h
  cases next with
  | nil =>
    cases ps with
    | nil => exact ⟨fun c hc => by simp [piecesSource] at hc, rfl⟩
    | cons p ps => exact absurd rfl (show ([] : Str) ≠ [] from by cases p <;> exact hf)
  | cons x next =>
    cases next with
    | nil =>
      refine ⟨?_, by simp⟩
      intro c hc
      cases hc
      rcases hn x (by simp) with h | h
      · exact .inl h
      · exact .inr (.inl h)
    | cons y next => simp at hl

theorem takeWhile_stop {p : Char → Bool} {w s : Str} (hw : ∀ c ∈ w, p c = true) (hs : ∀ a t, s = a :: t → p a = false) :
    (w ++ s).takeWhile p = w := by
  rw [List.takeWhile_append_of_pos hw]
  cases s with
  | nil => simp
  | cons a t => simp [hs a t rfl]

/-- The step at a piece. -/
theorem piece_step (d : Option DocTree) {p : Piece} {ps : List Piece} (h : Pieces (p :: ps)) (hno : ∀ c, p ≠ .opener c) :
    matchInlineStr d (p.source ++ piecesSource ps) = .ok (some ([p.node], p.source.length, d)) := by
  obtain ⟨hok, hf, hps⟩ := h
  cases p with
  | space w =>
    have hstop : ∀ a t, piecesSource ps = a :: t → isWs a = false := by
      intro a t e
      cases ps with
      | nil => cases e
      | cons p' ps =>
        obtain ⟨a', t', e', hk⟩ := piece_head hps.1 (piecesSource ps)
        rw [piecesSource_cons, e'] at e
        cases e
        cases p' with
        | space _ => exact absurd hf (by simp [Piece.followed])
        | _ => exact hk
    have htw := takeWhile_stop (p := isWs) hok.2 hstop
    obtain ⟨a, t, e, hk⟩ := piece_head (p := .space w) hok (piecesSource ps)
    obtain ⟨m, hm, hwm⟩ := ws_captures (s := t) hk
    simp only [Piece.source] at e ⊢
    rw [← e, htw] at hwm
    rw [e]
    simp only [matchInlineStr, inlineTransitions, firstInline, hm, inlineWhitespace, bind, Except.bind, pure, Except.pure,
      List.isEmpty_cons, Bool.false_eq_true, if_false, hwm, Piece.node]
  | word w =>
    have hat := pieces_atEnd (p := .word w) trivial hf hps
    have := word_step d (w := w) (k := []) (r := piecesSource ps)
      ⟨by simpa using hok.1, hok.2.1, hok.2.2, .inl rfl, hat, pieces_dry_tail hps hat⟩
    simpa [Piece.source, Piece.node] using this
  | lead w =>
    have hat := pieces_atEnd (p := .lead w) trivial hf hps
    have := word_step d (w := w) (k := [':']) (r := piecesSource ps)
      ⟨by simp, hok.1, hok.2, .inr rfl, hat, pieces_dry_tail hps hat⟩
    simpa [Piece.source, Piece.node] using this
  | emph c => simpa [Piece.source, Piece.node] using emph_step d hok (pieces_closed (p := .emph c) trivial hf hps)
  | strong c => simpa [Piece.source, Piece.node] using strong_step d hok (pieces_closed (p := .strong c) trivial hf hps)
  | literal c => simpa [Piece.source, Piece.node] using literal_step d hok (pieces_closed (p := .literal c) trivial hf hps)
  | role r c =>
    obtain ⟨a, l, e, h1, h2, h3, h4, h5⟩ := Spec.Role.ok hok.2
    have hn := Spec.Role.node_ok hok.2
    rw [e] at h1 h2 hn
    have := role_step d h1 h2 h3 h4 h5 hok.1 (pieces_closed (p := .role r c) trivial hf hps) hn
    simpa [Piece.source, Piece.node, e] using this
  | ref n => simpa [Piece.source, Piece.node] using ref_step d hok (pieces_closed (p := .ref n) trivial hf hps)
  | phrase c => simpa [Piece.source, Piece.node] using phrase_step d hok.1 hok.2 (pieces_closed (p := .phrase c) trivial hf hps)
  | link c gap u next =>
    obtain ⟨hcl, ht⟩ := link_closed hok hf
    have := link_step d hok.1.1 hok.1.2 hok.2.1.1 hok.2.1.2 hok.2.2.1.1 hcl
    rw [ht] at this
    simpa [Piece.source, Piece.node] using this
  | cite n => simpa [Piece.source, Piece.node] using cite_step d hok.1 hok.2 (pieces_closed (p := .cite n) trivial hf hps)
  | foot n => simpa [Piece.source, Piece.node] using foot_step d hok.1 hok.2 (pieces_closed (p := .foot n) trivial hf hps)
  | url u => simpa [Piece.source, Piece.node] using url_step d hok (pieces_cut hf hps)
  | mail m => simpa [Piece.source, Piece.node] using mail_step d hok (pieces_cut_mail hf hps)
  | opener c => exact absurd rfl (hno c)

theorem pair_opened (k : Paired) (d : Option DocTree) {w t u mk c : Str} {b : Char} (hq : quotationMatches [b] c = false) :
    pairedDelimiter k ⟨w, t, (.lookahead, u) :: (.markupEnd, mk) :: (.content, c) :: (.markupStart, mk) :: ([] ++ [(.lookbehind, [b])])⟩ d =
      .ok ([.Text (escapeText [b]), k.node (escapeText c)], 1 + (mk ++ (c ++ mk)).length, d) := by
  simp [pairedDelimiter, Match.getD, Match.need, Match.get, hq, behindNodes, bind, Except.bind, pure, Except.pure]
  omega

/-- The step at an opening character: it is taken alone or together with the markup behind it. -/
theorem opener_step (d : Option DocTree) {b : Char} {p : Piece} {ps : List Piece} (h : Pieces (.opener b :: p :: ps)) :
    matchInlineStr d (b :: (p.source ++ piecesSource ps)) = .ok (some ([.Text (escapeText [b])], 1, d)) ∨
    matchInlineStr d (b :: (p.source ++ piecesSource ps)) = .ok (some ([.Text (escapeText [b]), p.node], 1 + p.source.length, d)) := by
  obtain ⟨hb, hop, hok, hf, hps⟩ := h
  have hb : b ∈ openBrackets := hb
  have hop : p.opened b := hop
  have hesc := (bracket_facts hb).2.2.2.2.2
  cases p with
  | space w => exact hop.elim
  | word w => exact hop.elim
  | lead w => exact hop.elim
  | opener c => exact hop.elim
  | emph c =>
    right
    have hq := bracket_quotes hb (v := c) hop
    obtain ⟨w, t, u, hc⟩ := pair_captures (m := '*') (mk := []) (by decide) (by decide) (.inl rfl) hok (pieces_closed (p := .emph c) trivial hf hps)
    rw [show (Piece.emph c).source ++ piecesSource ps = '*' :: (c ++ '*' :: piecesSource ps) by simp [Piece.source]]
    refine opener_match d hb (k := 1) (by decide) rfl (emph_skip hok) (by rw [reEmph_pair]; exact hc) rfl fun w => ?_
    rw [List.cons_append, List.cons_append, List.cons_append, List.cons_append, pair_opened _ _ hq]
    rfl
  | strong c =>
    right
    have hq := bracket_quotes hb (v := c) hop
    obtain ⟨w, t, u, hc⟩ := pair_captures (m := '*') (mk := ['*']) (by decide) (by decide) (.inr rfl) hok (pieces_closed (p := .strong c) trivial hf hps)
    rw [show (Piece.strong c).source ++ piecesSource ps = '*' :: '*' :: (c ++ '*' :: '*' :: piecesSource ps) by simp [Piece.source]]
    refine opener_match d hb (k := 0) (by decide) rfl trivial (by rw [reStrong_pair]; exact hc) rfl fun w => ?_
    rw [List.cons_append, List.cons_append, List.cons_append, List.cons_append, pair_opened _ _ hq]
    rfl
  | literal c =>
    right
    have hq := bracket_quotes hb (v := c) hop
    obtain ⟨w, t, u, hc⟩ := pair_captures (m := '`') (mk := ['`']) (by decide) (by decide) (.inr rfl) hok (pieces_closed (p := .literal c) trivial hf hps)
    rw [show (Piece.literal c).source ++ piecesSource ps = '`' :: '`' :: (c ++ '`' :: '`' :: piecesSource ps) by simp [Piece.source]]
    refine opener_match d hb (k := 2) (by decide) rfl literal_skip (by rw [reLiteral_pair]; exact hc) rfl fun w => ?_
    rw [List.cons_append, List.cons_append, List.cons_append, List.cons_append, pair_opened _ _ hq]
    rfl
  | role r c =>
    left
    obtain ⟨a, l, e, h1, h2, h3, h4, h5⟩ := Spec.Role.ok hok.2
    have hq := bracket_quotes hb (v := r.name) hop
    obtain ⟨w, t, u, hc⟩ := role_captures (name := r.name) (by rw [e]; simp) h1 h2 (by rw [e]; simpa using h3) hok.1
      (pieces_closed (p := .role r c) trivial hf hps)
    have hs := role_skip (s := l ++ ':' :: '`' :: (c ++ '`' :: piecesSource ps)) h3 h4 h5
    rw [show (Piece.role r c).source ++ piecesSource ps = ':' :: (r.name ++ ':' :: '`' :: (c ++ '`' :: piecesSource ps)) by simp [Piece.source]]
    refine opener_match d hb (k := 5) (by decide) rfl (by rw [e]; exact hs) hc rfl fun w => ?_
    simp [interpretedText, Match.getD, Match.need, Match.get, hq, bind, Except.bind, pure, Except.pure]
  | ref n =>
    left
    obtain ⟨w, t, u, hc⟩ := ref_captures hok (pieces_closed (p := .ref n) trivial hf hps)
    obtain ⟨a, s, e, ha, _⟩ := Spec.Name.head hok ('_' :: piecesSource ps)
    rw [show (Piece.ref n).source ++ piecesSource ps = n.text ++ '_' :: piecesSource ps by simp [Piece.source]]
    refine opener_match d hb (k := 8) (by decide) rfl (by rw [e]; exact alnum_skip ha) hc rfl fun w => ?_
    simp [simpleRef, Match.getD, Match.need, Match.get, bind, Except.bind, pure, Except.pure]
  | phrase c =>
    left
    have hq := bracket_quotes hb (v := c) hop
    obtain ⟨w, t, u, hc⟩ := phrase_captures hok.1 hok.2 (pieces_closed (p := .phrase c) trivial hf hps)
    rw [show (Piece.phrase c).source ++ piecesSource ps = '`' :: (c ++ '`' :: '_' :: piecesSource ps) by simp [Piece.source]]
    refine opener_match d hb (k := 4) (by decide) rfl (tick_skip hok.1) hc rfl fun w => ?_
    simp [phraseRef, Match.getD, Match.need, Match.get, hq, bind, Except.bind, pure, Except.pure]
  | link c gap u next =>
    left
    have hq := bracket_quotes hb (v := c) hop
    obtain ⟨hcl, ht⟩ := link_closed hok hf
    have hc := link_captures hok.1.1 hok.1.2 hok.2.1.1 hok.2.1.2 hok.2.2.1.1 hcl
    rw [show (Piece.link c gap u next).source ++ piecesSource ps = '`' :: (c ++ (gap ++ '<' :: (u ++ '>' :: '`' :: '_' :: (next ++ piecesSource ps)))) by
      simp [Piece.source]]
    refine opener_match d hb (k := 4) (by decide) rfl (tick_skip hok.1.1) hc rfl fun w => ?_
    simp [phraseRef, Match.getD, Match.need, Match.get, hq, bind, Except.bind, pure, Except.pure]
  | cite n =>
    right
    obtain ⟨w, t, u, hc⟩ := cite_captures hok.1 (pieces_closed (p := .cite n) trivial hf hps)
    have htrim : Rustla.trim n.text = n.text := Spec.Name.trim (by decide) hok.1
    obtain ⟨a, s, e, ha, _⟩ := Spec.Name.head hok.1 []
    have hq := bracket_quotes hb (v := n.text) (by
      rw [List.append_nil] at e
      rw [e]
      rintro x hx rfl
      cases hx
      have : ∀ c ∈ openBrackets, (counterpart c).isAlphanum = false := by decide
      rw [this b hb] at ha; cases ha)
    rw [show (Piece.cite n).source ++ piecesSource ps = '[' :: (n.text ++ ']' :: '_' :: piecesSource ps) by simp [Piece.source]]
    refine opener_match d hb (k := 7) (by decide) rfl (cite_skip hok.1 hok.2) hc rfl fun w => ?_
    simp [citationRef, Match.getD, Match.need, Match.get, hq, htrim, hesc, Piece.node, Piece.source, bind, Except.bind, pure, Except.pure]
    omega
  | foot n =>
    right
    obtain ⟨w, t, u, hc⟩ := footRef_captures hok.1 hok.2 (pieces_closed (p := .foot n) trivial hf hps)
    rw [show (Piece.foot n).source ++ piecesSource ps = '[' :: (n ++ ']' :: '_' :: piecesSource ps) by simp [Piece.source]]
    refine opener_match d hb (k := 6) (by decide) rfl ?_ hc rfl fun w => ?_
    · obtain ⟨hne, hn⟩ := hok
      cases n with
      | nil => exact absurd rfl hne
      | cons a n => exact bracket_skip (by simp [Char.isAlphanum, hn a (by simp)])
    · have hne := hok.1
      simp [footnoteRef, footnoteRefNode, behindNodes, hne, Match.getD, Match.need, Match.get, Piece.node, Piece.source, bind, Except.bind, pure, Except.pure]
      omega
  | url u =>
    left
    obtain ⟨_, hskip, w, t, x, y, v, hcap, hpath, hscheme⟩ := url_match hok (pieces_cut hf hps)
    refine opener_match d hb (k := 10) (by decide) rfl hskip hcap rfl fun w => ?_
    simp [inlineUri, Match.getD, Match.need, Match.get, bind, Except.bind, pure, Except.pure]
  | mail m =>
    left
    obtain ⟨_, hskip, w, t, x, hcap⟩ := mail_match hok (pieces_cut_mail hf hps)
    refine opener_match d hb (k := 10) (by decide) rfl hskip hcap rfl fun w => ?_
    simp [inlineUri, Match.getD, Match.need, Match.get, bind, Except.bind, pure, Except.pure]

/-- **C57.** A text made of words, white space and inline markup is taken apart into exactly these pieces: each piece
becomes the node it stands for, in order, nothing is lost or added, the document is left alone and the line count advances
by the line feeds in the text. -/
theorem C57_markup (d : Option DocTree) (c : LineCursor) (ps : List Piece) (h : Pieces ps) :
    inlineParse d c (piecesSource ps) =
      .ok (ps.map Piece.node, d, c.incrementBy ((piecesSource ps).count '\n')) := by
  have key : ∀ (ps : List Piece) (c : LineCursor) n, Pieces ps → (piecesSource ps).length ≤ n →
      inlineLoop n d c (piecesSource ps) = .ok (ps.map Piece.node, d, c.incrementBy ((piecesSource ps).count '\n')) := by
    intro ps
    induction hl : ps.length using Nat.strongRecOn generalizing ps with
    | ind l ih =>
    intro c n h hn
    have pos : ∀ {p : Piece}, p.Ok → 1 ≤ p.source.length := fun {p} hp => by
      cases e : p.source with
      | nil => exact absurd e (pieces_ne hp)
      | cons => simp
    cases ps with
    | nil => cases n <;> rfl
    | cons p ps =>
      have hp := pos h.1
      rw [piecesSource_cons, List.length_append] at hn
      cases n with
      | zero => omega
      | succ n =>
        by_cases hop : ∃ b, p = .opener b
        · obtain ⟨b, rfl⟩ := hop
          cases ps with
          | nil => exact h.2.1.elim
          | cons p' ps =>
            have hp' := pos h.2.2.1
            rw [piecesSource_cons] at hn
            rw [inlineLoop, piecesSource_cons, piecesSource_cons]
            change (do let r ← matchInlineStr d (b :: (p'.source ++ piecesSource ps)); _) = _
            have hsrc : (Piece.opener b).source ++ (p'.source ++ piecesSource ps) = b :: (p'.source ++ piecesSource ps) := rfl
            simp only [hsrc]
            rw [List.length_append] at hn
            rcases opener_step d h with e | e
            · rw [e]
              simp only [bind, Except.bind, List.drop_succ_cons, List.drop_zero, List.take_succ_cons, List.take_zero]
              have := ih (ps.length + 1) (by rw [← hl]; simp) (p' :: ps) rfl (c.incrementBy (countNewlines [b])) n h.2.2
                (by rw [piecesSource_cons, List.length_append]; omega)
              rw [← piecesSource_cons, this]
              simp only [pure, Except.pure, List.map_cons, List.singleton_append, countNewlines, LineCursor.incrementBy_add,
                List.count_cons, List.count_nil, Piece.node]
              congr 4
              omega
            · rw [e]
              have e1 : (b :: (p'.source ++ piecesSource ps)).drop (1 + p'.source.length) = piecesSource ps := by
                rw [Nat.add_comm, List.drop_succ_cons, List.drop_left]
              have e2 : (b :: (p'.source ++ piecesSource ps)).take (1 + p'.source.length) = b :: p'.source := by
                rw [Nat.add_comm, List.take_succ_cons, List.take_left]
              simp only [bind, Except.bind, e1, e2]
              have := ih ps.length (by rw [← hl]; simp only [List.length_cons]; omega) ps rfl (c.incrementBy (countNewlines (b :: p'.source))) n h.2.2.2.2
                (by omega)
              rw [this]
              simp only [pure, Except.pure, List.map_cons, List.cons_append, List.nil_append, countNewlines, LineCursor.incrementBy_add,
                List.count_cons, List.count_append, Piece.node]
              congr 4
              omega
        · rw [inlineLoop, piecesSource_cons, piece_step d h (fun b e => hop ⟨b, e⟩)]
          simp only [bind, Except.bind, List.drop_left, List.take_left]
          rw [ih ps.length (by rw [← hl]; simp) ps rfl _ n h.2.2 (by omega)]
          simp only [pure, Except.pure, List.map_cons, List.singleton_append, countNewlines, LineCursor.incrementBy_add,
            List.count_append]
  exact key ps c _ h (Nat.le_refl _)

/-- A text with all kinds of pieces. -/
def samplePieces : List Piece :=
  [.word (str! "Let"), .space (str! " "), .role .math (str! "x^2"), .space (str! " "), .word (str! "be"),
   .space (str! "\n"), .strong (str! "very small"), .word (str! ","), .space (str! " "), .opener '(', .emph (str! "2*3"), .word [')'], .space (str! " "),
   .literal (str! "a*b`c"), .lead [], .space (str! " "), .word (str! "snake_case"), .space (str! " "), .lead (str! "and"),
   .space (str! " "), .ref ⟨str! "a", [('-', str! "b1")]⟩, .lead (str! ","), .space (str! " "), .phrase (str! "See also"),
   .space (str! "\n"), .link (str! "my page") (str! " ") (str! "http://x.org/A") (str! "."), .space (str! " "),
   .cite ⟨str! "Knuth", [('_', str! "74")]⟩, .space (str! " "), .foot (str! "12"), .space (str! " "),
   .url ⟨str! "https", ⟨str! "x", [('.', str! "fi")]⟩, [str! "a", str! "b_c.html"], false⟩, .word (str! "."), .space (str! " "), .opener '(', .mail ⟨⟨str! "j", [('_', str! "doe")]⟩, [⟨str! "tut", []⟩], ⟨str! "x", [('-', str! "y")]⟩, [('.', str! "fi")]⟩, .word [')'], .space (str! " "), .role .title (str! "A Book"), .space (str! " "),
   .role (.pep true) (str! "8"), .space (str! " "), .role (.rfc false) (str! "793"), .space (str! " "),
   .role (.other (str! "ref")) (str! "sec <sec-1>"), .word (str! ".")]

theorem samplePieces_ok : Pieces samplePieces := by decide +kernel

example : piecesSource samplePieces = str! "Let :math:`x^2` be\n**very small**, (*2*3*) ``a*b`c``: snake_case and: a-b1_,: `See also`_\n`my page <http://x.org/A>`_. [Knuth_74]_ [12]_ https://x.fi/a/b_c.html. (j_doe.tut@x-y.fi) :title-reference:`A Book` :PEP:`8` :rfc-reference:`793` :ref:`sec <sec-1>`." := by
  decide +kernel

/-- Words with colons in them. -/
example : Pieces [.word (str! "12:30"), .space (str! " "), .lead (str! "std::vector"), .space (str! " "), .word (str! "(A:1,")] ∧
    ¬ Pieces [.word (str! "go:left")] := by decide +kernel

/-- Finding: the dot of a scheme stands for any character, so that an address may contain a space before the colon. -/
theorem C57_spaced_address :
    (inlineParse none ⟨0, 0⟩ (str! "an iris beep:left")).toOption.map (·.1) =
      some [.Text (str! "an"), .WhiteSpace (str! " "), .Reference none (.URI (str! "iris beep:left"))] := by
  decide +kernel

/-- **A mark too many belongs to the text.** Text between asterisks, pairs of asterisks or pairs of back quotes with another mark directly behind it is
one piece of markup that contains the additional mark: an asterisk or back quote is not among the characters that may follow markup. -/
theorem C57_doubled_marks (d : Option DocTree) (cur : LineCursor) (c : Str) :
    (Between '*' c → inlineParse d cur ('*' :: (c ++ str! "**")) = .ok ([.Emphasis (escapeText (c ++ ['*']))], d, cur.incrementBy (c.count '\n'))) ∧
    (Between '*' c → inlineParse d cur ('*' :: '*' :: (c ++ str! "***")) =
      .ok ([.StrongEmphasis (escapeText (c ++ ['*']))], d, cur.incrementBy (c.count '\n'))) ∧
    (Between '`' c → inlineParse d cur ('`' :: '`' :: (c ++ str! "```")) = .ok ([.Literal (escapeText (c ++ ['`']))], d, cur.incrementBy (c.count '\n'))) := by
  have once : ∀ {s : Str} {n : NodeType}, s ≠ [] → matchInlineStr d s = .ok (some ([n], s.length, d)) →
      inlineParse d cur s = .ok ([n], d, cur.incrementBy (countNewlines s)) := by
    intro s n hs h
    unfold inlineParse
    cases hl : s.length with
    | zero => exact absurd (List.length_eq_zero_iff.mp hl) hs
    | succ k =>
      rw [inlineLoop]
      simp only [h, bind, Except.bind, List.drop_length, List.take_length]
      cases k <;> rfl
  have hr : Closed [] := fun c hc => by cases hc
  refine ⟨fun h => ?_, fun h => ?_, fun h => ?_⟩
  · have hc : countNewlines ('*' :: (c ++ str! "**")) = c.count '\n' := by simp [countNewlines, List.count_cons]
    rw [← hc]
    refine once (by simp) ?_
    obtain ⟨w, t, u, hcap⟩ := pair_doubled (m := '*') (mk := []) (by decide) (by decide) (by decide) (by decide) (by decide) (.inl rfl) h hr
    have e : '*' :: (c ++ str! "**") = ['*'] ++ ((c ++ ['*']) ++ (['*'] ++ [])) := by simp
    have hsk : Skip 1 ('*' :: (c ++ str! "**")) := emph_skip (rest := ['*']) h
    rw [step_skip d (by decide) hsk]
    refine first_take d (m := ⟨w, t, _⟩) (by rw [reEmph_pair, e]; exact hcap) ?_
    rw [pair_node]; simp [Paired.node]
  · have hc : countNewlines ('*' :: '*' :: (c ++ str! "***")) = c.count '\n' := by simp [countNewlines, List.count_cons]
    rw [← hc]
    refine once (by simp) ?_
    obtain ⟨w, t, u, hcap⟩ := pair_doubled (m := '*') (mk := ['*']) (by decide) (by decide) (by decide) (by decide) (by decide) (.inr rfl) h hr
    have e : '*' :: '*' :: (c ++ str! "***") = ['*', '*'] ++ ((c ++ ['*']) ++ (['*', '*'] ++ [])) := by simp
    rw [step_first d (by decide)]
    refine first_take d (m := ⟨w, t, _⟩) (by rw [reStrong_pair, e]; exact hcap) ?_
    rw [pair_node]; simp [Paired.node]
  · have hc : countNewlines ('`' :: '`' :: (c ++ str! "```")) = c.count '\n' := by simp [countNewlines, List.count_cons]
    rw [← hc]
    refine once (by simp) ?_
    obtain ⟨w, t, u, hcap⟩ := pair_doubled (m := '`') (mk := ['`']) (by decide) (by decide) (by decide) (by decide) (by decide) (.inr rfl) h hr
    have e : '`' :: '`' :: (c ++ str! "```") = ['`', '`'] ++ ((c ++ ['`']) ++ (['`', '`'] ++ [])) := by simp
    rw [step_skip d (by decide) literal_skip]
    refine first_take d (m := ⟨w, t, _⟩) (by rw [reLiteral_pair, e]; exact hcap) ?_
    rw [pair_node]; simp [Paired.node]

example : Between '*' (str! "2*3") ∧ Between '`' (str! "a\nb") := by decide

/-- The condition on what follows markup is needed: with a letter behind the closing mark, the marks are ordinary text. -/
theorem C57_needs_following :
    (inlineParse none ⟨0, 0⟩ (str! "*a*b")).toOption.map (·.1) = some [.Text (str! "*a*b")] := by
  decide +kernel

/-- Finding: the text of a role is not escaped, while the same text between asterisks is. -/
theorem C57_role_not_escaped :
    (inlineParse none ⟨0, 0⟩ (str! ":emphasis:`50%` *50%*")).toOption.map (·.1) =
      some [.Emphasis (str! "50%"), .WhiteSpace (str! " "), .Emphasis (str! "50\\%")] := by
  decide +kernel

/-- Finding: the character that follows a reference to an address is lost, and the address is converted to lower case. -/
theorem C57_link_swallows :
    (inlineParse none ⟨0, 0⟩ (str! "`a <http://x.org/A>`_, b")).toOption.map (·.1) =
      some [.Reference (some (str! "a")) (.URI (str! "http://x.org/a")), .WhiteSpace (str! " "), .Text (str! "b")] := by
  decide +kernel

/-- Finding: a title between back quotes is joined with a later reference by several words. -/
theorem C57_title_swallowed :
    (inlineParse none ⟨0, 0⟩ (str! "`a` b `c`_")).toOption.map (·.1) =
      some [.Reference (some (str! "a` b `c")) (.Internal (str! "a` b `c"))] := by
  decide +kernel

/-- Finding: a proposal with a number of more than four digits ends the program. -/
theorem C57_long_pep : (inlineParse none ⟨0, 0⟩ (str! ":PEP:`12345`")).toOption = none := by
  decide +kernel

/-- Finding: an address ends at a hyphen of its path, and a fragment of one character is not part of the address. -/
theorem C57_address_cut :
    (inlineParse none ⟨0, 0⟩ (str! "https://a.bc/c-d")).toOption.map (·.1) =
      some [.Reference none (.URI (str! "https://a.bc/c")), .Text (str! "-d")] ∧
    (inlineParse none ⟨0, 0⟩ (str! "https://a.bc/c#y")).toOption.map (·.1) =
      some [.Reference none (.URI (str! "https://a.bc/c")), .Text (str! "\\# y")] ∧
    (inlineParse none ⟨0, 0⟩ (str! "https://a.bc/c#yz")).toOption.map (·.1) =
      some [.Reference none (.URI (str! "https://a.bc/c#yz"))] := by
  decide +kernel

/-- Finding: an address whose last label has one character and that has no path is not recognised. -/
theorem C57_short_address :
    (inlineParse none ⟨0, 0⟩ (str! "https://a.b")).toOption.map (·.1) = some [.Text (str! "https://a.b")] ∧
    (inlineParse none ⟨0, 0⟩ (str! "https://a.bc")).toOption.map (·.1) = some [.Reference none (.URI (str! "https://a.bc"))] := by
  decide +kernel

/-- Finding: a brace before a reference to a citation is not escaped, although it is escaped before other markup, so the
output has an unbalanced brace. -/
theorem C57_brace_not_escaped :
    (inlineParse none ⟨0, 0⟩ (str! "{[Knuth]_ x")).toOption.map (·.1) =
      some [.Text (str! "{"), .CitationReference (str! "Knuth") (str! "Knuth"), .WhiteSpace (str! " "), .Text (str! "x")] ∧
    (inlineParse none ⟨0, 0⟩ (str! "{*a* x")).toOption.map (·.1) =
      some [.Text (str! "\\{"), .Emphasis (str! "a"), .WhiteSpace (str! " "), .Text (str! "x")] := by
  decide +kernel

/-- Finding: markup behind two opening characters is not recognised. -/
theorem C57_two_brackets :
    (inlineParse none ⟨0, 0⟩ (str! "(\"*a*\")")).toOption.map (·.1) = some [.Text (str! "(\"*a*\")")] := by
  decide +kernel

end Rustla
