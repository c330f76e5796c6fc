import Verif.Lemmas.Marked
import Verif.Spec.Notes
/-! # Footnotes with numbers and citations -/
namespace Rustla
open Spec

theorem digit_range {c : Char} (h : c.isDigit = true) : c.toNat < 128 := by
  simp only [Char.isDigit, Bool.and_eq_true, decide_eq_true_eq, UInt32.le_iff_toNat_le] at h
  have h2 := h.2
  have : ('9' : Char).val.toNat = 57 := rfl
  rw [this] at h2
  show c.val.toNat < 128
  omega

theorem alpha_range {c : Char} (h : c.isAlpha = true) : c.toNat < 128 := by
  simp only [Char.isAlpha, Char.isUpper, Char.isLower, Bool.or_eq_true, Bool.and_eq_true, decide_eq_true_eq, UInt32.le_iff_toNat_le] at h
  have h1 : ('Z' : Char).val.toNat = 90 := rfl
  have h2 : ('z' : Char).val.toNat = 122 := rfl
  rw [h1, h2] at h
  show c.val.toNat < 128
  omega

/-- What holds for all characters of seven bits holds for all of these. -/
theorem ascii_all {p : Char → Prop} (h : ∀ n : Fin 128, p (Char.ofNat n)) {c : Char} (hc : c.toNat < 128) : p c := by
  have := h ⟨c.toNat, hc⟩
  rwa [show Char.ofNat c.toNat = c from Char.ofNat_toNat c] at this

theorem digit_nd {c : Char} (h : c.isDigit = true) : isNd c = true := by
  have key : ∀ n : Fin 128, (Char.ofNat n).isDigit = true → isNd (Char.ofNat n) = true := by decide +kernel
  exact ascii_all (p := fun c => c.isDigit = true → isNd c = true) key (digit_range h) h

theorem alpha_not_nd {c : Char} (h : c.isAlpha = true) : isNd c = false := by
  have key : ∀ n : Fin 128, (Char.ofNat n).isAlpha = true → isNd (Char.ofNat n) = false := by decide +kernel
  exact ascii_all (p := fun c => c.isAlpha = true → isNd c = false) key (alpha_range h) h

theorem digit_alnum {c : Char} (h : c.isDigit = true) : c.isAlphanum = true := by simp [Char.isAlphanum, h]

/-- Two texts without a bracket in front of a bracket. -/
theorem bracket_unique {m n t t' : Str} (hm : ']' ∉ m) (hn : ']' ∉ n) (e : m ++ ']' :: t = n ++ ']' :: t') : m = n ∧ t = t' := by
  induction m generalizing n with
  | nil =>
    cases n with
    | nil => simpa using e
    | cons a n =>
      simp only [List.nil_append, List.cons_append, List.cons.injEq] at e
      exact absurd (by simp [← e.1]) hn
  | cons a m ih =>
    cases n with
    | nil =>
      simp only [List.nil_append, List.cons_append, List.cons.injEq] at e
      exact absurd (by simp [e.1]) hm
    | cons b n =>
      simp only [List.cons_append, List.cons.injEq] at e
      obtain ⟨rfl, h2⟩ := ih (n := n) (fun h => hm (by simp [h])) (fun h => hn (by simp [h])) e.2
      exact ⟨by rw [e.1], h2⟩

theorem sepTail_bracket {t : Str} (h : SepTail t) : ']' ∉ t := by
  induction h with
  | nil => simp
  | @more c w t hc _ ha _ ih =>
    intro h'
    simp only [List.mem_cons, List.mem_append] at h'
    rcases h' with h' | h' | h'
    · subst h'; revert hc; decide
    · exact absurd (ha _ h') (by decide)
    · exact ih h'

/-- The pattern of the label of a citation. -/
abbrev labelRe : Re := .seq (.cls clsAlpha) (.seq (.star true (.cls clsAlnum)) (.star true (.seq (.cls clsRefSep) (Re.plus true (.cls clsAlnum)))))

theorem mem_label {s : Str} {cs : Caps} {q : Str × Caps} : q ∈ labelRe.run s cs ↔
    q.2 = cs ∧ ∃ a w m, s = a :: (w ++ (m ++ q.1)) ∧ a.isAlpha = true ∧ (∀ x ∈ w, x.isAlphanum = true) ∧ SepTail m := by
  constructor
  · intro hq
    obtain ⟨r, hr, hq⟩ := mem_seq.mp hq
    obtain ⟨a, t, rfl, ha, rfl⟩ := mem_cls.mp hr
    obtain ⟨r, hr, hq⟩ := mem_seq.mp hq
    obtain ⟨h1, w, h2, h3⟩ := mem_star_cls.mp hr
    obtain ⟨h4, m, h5, h6⟩ := mem_sepTail.mp hq
    dsimp only at h1 h2
    exact ⟨h4.trans h1, a, w, m, by rw [h2, h5], alpha_cls.mp ha, fun x hx => alnum_cls.mp (h3 x hx), h6⟩
  · rintro ⟨rfl, a, w, m, rfl, ha, h3, h6⟩
    exact mem_seq.mpr ⟨_, mem_cls.mpr ⟨a, _, rfl, alpha_cls.mpr ha, rfl⟩,
      mem_seq.mpr ⟨(m ++ q.1, q.2), mem_star_cls.mpr ⟨rfl, w, rfl, fun x hx => alnum_cls.mpr (h3 x hx)⟩,
      mem_sepTail.mpr ⟨rfl, m, rfl, h6⟩⟩⟩

/-- The match of a footnote or a citation. -/
def noteMatch (N : Note) (i : Nat) (l : Str) : Match :=
  ⟨spaces i ++ N.text, l, if N.foot then [(.manual, N.label), (.indent, spaces i)] else [(.g2, N.label), (.g1, spaces i)]⟩

theorem note_line (N : Note) (i : Nat) {l : Str} (hl : l ≠ []) :
    indentLine i (N.text ++ l) = spaces i ++ '.' :: '.' :: ' ' :: '[' :: (N.label ++ ']' :: behind l) := by
  simp [indentLine, Note.text, behind, hl]

theorem foot_captures {N : Note} {alone : Prop} (h : N.Ok alone) (hf : N.foot = true) {l : Str} (hl : TextLine l) (i : Nat) :
    reFootnote.captures (indentLine i (N.text ++ l)) = some (noteMatch N i l) := by
  obtain ⟨hne, hdig⟩ := h.foot hf
  obtain ⟨x, t, e, hx⟩ := hl.cons
  have hlne : l ≠ [] := by rw [e]; simp
  have hflush : Flush l := by rw [e]; intro c hc; cases hc; exact hx
  have hb : ']' ∉ N.label := fun h => absurd (hdig _ h) (by decide)
  have key : ∀ q, q ∈ reFootnote.run (indentLine i (N.text ++ l)) [] ↔ q = (l, [(.manual, N.label), (.indent, spaces i)]) := by
    intro q
    unfold reFootnote
    rw [note_line N i hlne, run_seq_spaces (dots_space _) (by decide), dots_mem, dots_mem_one (by decide), mem_seq]
    constructor
    · rintro ⟨r, hr, hq⟩
      obtain ⟨t1, e1, rfl⟩ := mem_chr.mp hr
      obtain ⟨r2, hr2, hq⟩ := mem_seq.mp hq
      obtain ⟨r3, hr3, hq⟩ := mem_seq.mp hq
      obtain ⟨t3, e3, rfl⟩ := mem_chr.mp hr3
      dsimp only at hr2
      simp only [List.cons.injEq, true_and] at e1
      subst e1
      obtain ⟨d, ds, hd⟩ := List.exists_cons_of_ne_nil hne
      have hdd : d.isDigit = true := hdig d (by simp [hd])
      rcases mem_alt.mp hr2 with hr2 | hr2
      · obtain ⟨m, r4, e4, hr4, rfl⟩ := mem_cap.mp hr2
        obtain ⟨h5, w, _, e5, hw⟩ := mem_plus_cls.mp hr4
        obtain rfl : m = w := List.append_cancel_right (e4.symm.trans e5)
        dsimp only at e3
        rw [e3] at e4
        have hm : ']' ∉ m := fun h => absurd (hw _ h) (by decide)
        obtain ⟨rfl, rfl⟩ := bracket_unique hb hm e4
        dsimp only at hq
        rw [h5] at hq
        exact (mem_gap hflush).mp hq
      · exfalso
        rw [hd] at hr2
        rcases mem_alt.mp hr2 with hr2 | hr2
        · obtain ⟨m, r4, e4, hr4, _⟩ := mem_cap.mp hr2
          obtain ⟨_, e6, _⟩ := mem_chr.mp hr4
          simp only [List.cons_append, List.cons.injEq] at e6
          rw [e6.1] at hdd; exact absurd hdd (by decide)
        rcases mem_alt.mp hr2 with hr2 | hr2
        · obtain ⟨r4, hr4, _⟩ := mem_seq.mp hr2
          obtain ⟨_, e6, _⟩ := mem_chr.mp hr4
          simp only [List.cons_append, List.cons.injEq] at e6
          rw [e6.1] at hdd; exact absurd hdd (by decide)
        · obtain ⟨m, r4, e4, hr4, _⟩ := mem_cap.mp hr2
          obtain ⟨_, e6, _⟩ := mem_chr.mp hr4
          simp only [List.cons_append, List.cons.injEq] at e6
          rw [e6.1] at hdd; exact absurd hdd (by decide)
    · rintro rfl
      refine ⟨_, mem_chr.mpr ⟨_, rfl, rfl⟩, mem_seq.mpr ⟨(']' :: behind l, (.manual, N.label) :: [(.indent, spaces i)]), mem_alt.mpr (.inl ?_), ?_⟩⟩
      · exact mem_cap.mpr ⟨N.label, (']' :: behind l, [(.indent, spaces i)]), rfl, mem_plus_cls.mpr ⟨rfl, N.label, hne, rfl, fun x hx => digit_nd (hdig x hx)⟩, rfl⟩
      · exact mem_seq.mpr ⟨_, mem_chr.mpr ⟨_, rfl, rfl⟩, (mem_gap hflush).mpr rfl⟩
  have e2 : indentLine i (N.text ++ l) = (spaces i ++ N.text) ++ l := by simp [indentLine]
  have e3 : noteMatch N i l = ⟨spaces i ++ N.text, l, [(.manual, N.label), (.indent, spaces i)]⟩ := by simp [noteMatch, hf]
  rw [e3]
  rw [e2] at key ⊢
  exact captures_of_unique ((key _).mpr rfl) fun q hq => (key q).mp hq

theorem citation_captures {N : Note} {alone : Prop} (h : N.Ok alone) (hf : N.foot = false) {l : Str} (hl : TextLine l) (i : Nat) :
    reFootnote.captures (indentLine i (N.text ++ l)) = none ∧ reCitation.captures (indentLine i (N.text ++ l)) = some (noteMatch N i l) := by
  obtain ⟨a, n, hn, ha, hnt⟩ := h.cite hf
  obtain ⟨w, m, rfl, hw, hm⟩ := nameTail_split hnt
  obtain ⟨x, t, e, hx⟩ := hl.cons
  have hlne : l ≠ [] := by rw [e]; simp
  have hflush : Flush l := by rw [e]; intro c hc; cases hc; exact hx
  have hb : ∀ {a : Char} {w m : Str}, a.isAlpha = true → (∀ x ∈ w, x.isAlphanum = true) → SepTail m → ']' ∉ a :: (w ++ m) := by
    intro a w m ha hw hm h
    simp only [List.mem_cons, List.mem_append] at h
    rcases h with h | h | h
    · subst h; exact absurd ha (by decide)
    · exact absurd (hw _ h) (by decide)
    · exact sepTail_bracket hm h
  constructor
  · rw [Re.captures_none_iff, List.eq_nil_iff_forall_not_mem]
    intro q
    unfold reFootnote
    rw [note_line N i hlne, run_seq_spaces (dots_space _) (by decide), dots_mem, dots_mem_one (by decide), mem_seq]
    rintro ⟨r, hr, hq⟩
    obtain ⟨t1, e1, rfl⟩ := mem_chr.mp hr
    obtain ⟨r2, hr2, hq⟩ := mem_seq.mp hq
    simp only [List.cons.injEq, true_and] at e1
    subst e1
    dsimp only at hr2
    rw [hn] at hr2
    rcases mem_alt.mp hr2 with hr2 | hr2
    · obtain ⟨m', r4, e4, hr4, rfl⟩ := mem_cap.mp hr2
      obtain ⟨h5, w', hw', e5, hw''⟩ := mem_plus_cls.mp hr4
      cases w' with
      | nil => exact hw' rfl
      | cons b w' =>
        simp only [List.cons_append, List.cons.injEq] at e5
        have := hw'' b (by simp)
        rw [← e5.1, alpha_not_nd ha] at this
        cases this
    rcases mem_alt.mp hr2 with hr2 | hr2
    · obtain ⟨m, r4, e4, hr4, _⟩ := mem_cap.mp hr2
      obtain ⟨_, e6, _⟩ := mem_chr.mp hr4
      simp only [List.cons_append, List.cons.injEq] at e6
      rw [e6.1] at ha; exact absurd ha (by decide)
    rcases mem_alt.mp hr2 with hr2 | hr2
    · obtain ⟨r4, hr4, _⟩ := mem_seq.mp hr2
      obtain ⟨_, e6, _⟩ := mem_chr.mp hr4
      simp only [List.cons_append, List.cons.injEq] at e6
      rw [e6.1] at ha; exact absurd ha (by decide)
    · obtain ⟨m, r4, e4, hr4, _⟩ := mem_cap.mp hr2
      obtain ⟨_, e6, _⟩ := mem_chr.mp hr4
      simp only [List.cons_append, List.cons.injEq] at e6
      rw [e6.1] at ha; exact absurd ha (by decide)
  have key : ∀ q, q ∈ reCitation.run (indentLine i (N.text ++ l)) [] ↔ q = (l, [(.g2, N.label), (.g1, spaces i)]) := by
    intro q
    unfold reCitation
    rw [note_line N i hlne, run_seq_spaces (dots_space _) (by decide), dots_mem, dots_mem_one (by decide), mem_seq]
    constructor
    · rintro ⟨r, hr, hq⟩
      obtain ⟨t1, e1, rfl⟩ := mem_chr.mp hr
      obtain ⟨r2, hr2, hq⟩ := mem_seq.mp hq
      obtain ⟨r3, hr3, hq⟩ := mem_seq.mp hq
      obtain ⟨t3, e3, rfl⟩ := mem_chr.mp hr3
      dsimp only at hr2
      simp only [List.cons.injEq, true_and] at e1
      subst e1
      obtain ⟨k, r4, e4, hr4, rfl⟩ := mem_cap.mp hr2
      obtain ⟨h5, a', w', m', e5, ha', hw', hm'⟩ := mem_label.mp hr4
      have e6 : k = a' :: (w' ++ m') := List.append_cancel_right (e4.symm.trans (by rw [e5]; simp))
      dsimp only at e3
      rw [e3] at e4
      have hk : ']' ∉ k := by rw [e6]; exact hb ha' hw' hm'
      obtain ⟨rfl, rfl⟩ := bracket_unique (by rw [hn]; exact hb ha hw hm) hk e4
      dsimp only at hq
      rw [h5] at hq
      exact (mem_gap hflush).mp hq
    · rintro rfl
      refine ⟨_, mem_chr.mpr ⟨_, rfl, rfl⟩, mem_seq.mpr ⟨(']' :: behind l, (.g2, N.label) :: [(.g1, spaces i)]), ?_, ?_⟩⟩
      · exact mem_cap.mpr ⟨N.label, (']' :: behind l, [(.g1, spaces i)]), rfl, mem_label.mpr ⟨rfl, a, w, m, by rw [hn]; simp, ha, hw, hm⟩, rfl⟩
      · exact mem_seq.mpr ⟨_, mem_chr.mpr ⟨_, rfl, rfl⟩, (mem_gap hflush).mpr rfl⟩
  have e2 : indentLine i (N.text ++ l) = (spaces i ++ N.text) ++ l := by simp [indentLine]
  have e3 : noteMatch N i l = ⟨spaces i ++ N.text, l, [(.g2, N.label), (.g1, spaces i)]⟩ := by simp [noteMatch, hf]
  rw [e3]
  rw [e2] at key ⊢
  exact captures_of_unique ((key _).mpr rfl) fun q hq => (key q).mp hq

/-- What is done with the line of a note. -/
def noteAct (E : Env) (N : Note) : Transition := if N.foot then bodyFootnote E else bodyCitation E

theorem note_transition (E : Env) {N : Note} {alone : Prop} (h : N.Ok alone) {l : Str} (hl : TextLine l) (i : Nat) :
    firstTransition (indentLine i (N.text ++ l)) (bodyTable E) = some (noteMatch N i l, noteAct E N) := by
  have hlne : l ≠ [] := by obtain ⟨x, t, e, hx⟩ := hl.cons; rw [e]; simp
  have hw : isWs '.' = false := by decide
  have hun := unmarked_dots i ('.' :: ' ' :: '[' :: (N.label ++ ']' :: behind l))
  have hbl := blankLine_dead (indented_not_blank (t := '.' :: ' ' :: '[' :: (N.label ++ ']' :: behind l)) hw i)
  rw [← note_line N i hlne] at hun hbl
  obtain ⟨h1, h2, h3⟩ := hun
  cases hf : N.foot with
  | true => simp only [firstTransition, bodyTable, bodyRest, hbl, h1, h2, h3, foot_captures h hf hl i, noteAct, hf, if_true]
  | false =>
    obtain ⟨k1, k2⟩ := citation_captures h hf hl i
    simp only [firstTransition, bodyTable, bodyRest, hbl, h1, h2, h3, k1, k2, noteAct, hf, Bool.false_eq_true, if_false]

/-! ## Labels -/

theorem splitWs_word : ∀ {s cur : Str}, (∀ c ∈ s, isWs c = false) → cur ++ s ≠ [] → splitWsAux s cur.reverse = [cur ++ s]
  | [], cur, _, hne => by
    have : cur.reverse.isEmpty = false := by cases cur with
      | nil => simp at hne
      | cons a t => simp
    simp [splitWsAux]
    simpa using hne
  | c :: s, cur, h, _ => by
    rw [splitWsAux, h c (by simp)]
    simp only [Bool.false_eq_true, if_false]
    have := splitWs_word (s := s) (cur := cur ++ [c]) (fun x hx => h x (by simp [hx])) (by simp)
    simpa using this

theorem normalize_digits {s : Str} (hne : s ≠ []) (h : ∀ c ∈ s, c.isDigit = true) : normalizeRefname s = s := by
  have hw : splitWs s = [s] := by
    have := splitWs_word (s := s) (cur := []) (fun c hc => alnum_not_ws (digit_alnum (h c hc))) (by simpa using hne)
    simpa [splitWs] using this
  unfold normalizeRefname normalizeRefnameWith
  rw [hw, joinWith]
  have : ∀ n : Fin 128, (Char.ofNat n).isDigit = true → lowerAscii (Char.ofNat n) = Char.ofNat n := by decide +kernel
  have key : ∀ c ∈ s, lowerAscii c = c := fun c hc =>
    ascii_all (p := fun c => c.isDigit = true → lowerAscii c = c) this (digit_range (h c hc)) (h c hc)
  have e : ∀ s : Str, s.flatMap (fun c => [lowerAscii c]) = s.map lowerAscii := fun s => by
    induction s with
    | nil => rfl
    | cons a t ih => simp [List.flatMap_cons, ih]
  rw [e]
  conv => rhs; rw [← List.map_id s]
  exact List.map_congr_left key

/-- The label of a note starts and ends with letters or digits. -/
theorem nameTail_last : ∀ {t : Str} {a : Char}, a.isAlphanum = true → NameTail t → ∃ b, (a :: t).getLast? = some b ∧ b.isAlphanum = true
  | [], a, ha, _ => ⟨a, rfl, ha⟩
  | [c], a, _, h => ⟨c, rfl, h⟩
  | c :: d :: t, a, _, h => by
    have key : ∀ (c d : Char) (t : Str), NameTail (c :: d :: t) → ∃ b, (d :: t).getLast? = some b ∧ b.isAlphanum = true := by
      intro c d t
      induction t generalizing c d with
      | nil => intro h; exact ⟨d, rfl, h.2⟩
      | cons e t ih =>
        intro h
        obtain ⟨b, h1, h2⟩ := ih d e h.2
        exact ⟨b, by rw [List.getLast?_cons_cons]; exact h1, h2⟩
    obtain ⟨b, h1, h2⟩ := key c d t h
    exact ⟨b, by rw [List.getLast?_cons_cons, List.getLast?_cons_cons]; exact h1, h2⟩

theorem note_trim {N : Note} {alone : Prop} (h : N.Ok alone) (hf : N.foot = false) : trim N.label = N.label := by
  obtain ⟨a, t, e, ha, ht⟩ := h.cite hf
  obtain ⟨b, hb, hb'⟩ := nameTail_last (alnum_of_alpha ha) ht
  rw [← e] at hb
  have := trim_ends (t := N.label) (w := []) (a := a) (by rw [e]; rfl) (alnum_not_ws (alnum_of_alpha ha)) hb (alnum_not_ws hb') (by simp)
  simpa using this

theorem ownLabels_note {N : Note} (i : Nat) : ownLabels (N.node i) = [N.name] := by
  unfold Note.node Note.name
  cases N.foot <;> rfl

theorem note_actions (N : Note) (i : Nat) (d : DocTree) (hq : d.hyperref.accumulated = []) :
    (d.hyperrefActions (N.node i)).2.2.notes = d.notes ∧ (d.hyperrefActions (N.node i)).2.1 = N.node i ∧
      (d.hyperrefActions (N.node i)).1.getD [] = ownLabels (N.node i) := by
  rw [ownLabels_note]
  unfold Note.node Note.name
  cases N.foot with
  | true =>
    simp only [if_true, DocTree.hyperrefActions, takeLabels_none _ hq]
    exact ⟨addTargets_notes .., trivial, rfl⟩
  | false =>
    simp only [Bool.false_eq_true, if_false, DocTree.hyperrefActions, takeLabels_none _ hq]
    exact ⟨addTarget_notes .., trivial, rfl⟩

/-! ## Reading -/

/-- The state in which the blocks of a note are read. -/
def noteState (N : Note) : State := if N.foot then .Footnote else .Citation

/-- The frame of a note with the given children. -/
abbrev noteFrame (N : Note) (i : Nat) (ss : List Shape) : Frame := ⟨noteState N, N.node i, ss, []⟩

theorem note_kind (N : Note) (i : Nat) : (N.node i).kind = if N.foot then .Footnote else .Citation := by
  unfold Note.node; cases N.foot <;> rfl

theorem bodyIndent_note (N : Note) (i : Nat) : (N.node i).bodyIndent = some (i + N.wide) := by
  unfold Note.node; cases N.foot <;> rfl

theorem noteFrame_body (E : Env) (N : Note) (i : Nat) (ss : List Shape) : (noteFrame N i ss).Body E (i + N.wide) := by
  refine ⟨?_, ?_, bodyIndent_note N i, fun k hk => ?_⟩
  · show BodyLike E (noteState N)
    unfold noteState; cases N.foot <;> exact .of rfl
  · show (noteState N).readable
    unfold noteState; cases N.foot <;> simp [State.readable]
  · show childIsAllowed (N.node i).kind k = _
    rw [note_kind]
    cases N.foot with
    | true => exact takes_body (p := .Footnote) rfl (by decide) hk
    | false => exact takes_body (p := .Citation) rfl (by decide) hk

theorem drop_note (N : Note) (i : Nat) (l : Str) : (indentLine i (N.text ++ l)).drop (i + N.text.length) = l := by
  have : indentLine i (N.text ++ l) = (spaces i ++ N.text) ++ l := by simp [indentLine]
  rw [this, List.drop_append_of_le_length (by simp)]
  have : (spaces i ++ N.text).length = i + N.text.length := by simp
  rw [← this, List.drop_length, List.nil_append]

/-- The first paragraph of a note is read up to a blank line. -/
theorem readIndented_note {src : List Str} {off i w : Nat} {N : Note} {l : Str} {ls rest : List Str} (hw : 0 < w)
    (h : src.drop off = indentLine i (N.text ++ l) :: ls.map (indentLine (i + w)) ++ rest) (hls : ∀ x ∈ ls, TextLine x)
    (hr : Ends (i + w) rest) :
    ∃ bf, readIndentedBlock src off true true (some (i + w)) (some (i + N.text.length)) false =
      .ok (.ok (l :: ls) (i + w) (ls.length + 1) bf) := by
  have hne : src.isEmpty = false := by
    cases src with
    | nil => simp at h
    | cons => rfl
  have hlen : ¬ src.length < off := by
    intro hlt
    rw [List.drop_eq_nil_of_le (by omega)] at h
    simp at h
  obtain ⟨h1, h2⟩ := readIndentedLoop_plain (by omega) hls hr (some (indentLine i (N.text ++ l)))
  have hstrip : stripBlock (some (i + N.text.length)) (i + w) (indentLine i (N.text ++ l) :: ls.map (indentLine (i + w))) = l :: ls := by
    simp only [stripBlock, drop_note, List.map_map]
    congr 1
    conv => rhs; rw [← List.map_id ls]
    refine List.map_congr_left fun x _ => ?_
    simp [drop_indentLine]
  rw [List.cons_append] at h
  simp only [readIndentedBlock, hne, Bool.false_eq_true, if_false, hlen, Option.or, h, h1, h2, if_true, hstrip]
  exact ⟨_, rfl⟩

/-- The lines behind the first one of a note tell the indentation of its contents. -/
def Tells (i : Nat) (N : Note) (ls : List Str) : Prop :=
  match ls.find? (fun l => !isBlank l) with
  | none => N.wide = N.text.length
  | some l => (indentOf l = i + N.wide ∧ 0 < N.wide) ∨ (indentOf l ≤ i ∧ N.wide = N.text.length)

/-- A note is opened and its first paragraph is read. -/
theorem AtL.note {E : Env} {S : SectionData} {os : List Frame} {s : LoopState} {f : Frame} {fs : List Frame} {l : Str} {ls rest : List Str} {ps : List Piece}
    {c r i : Nat} {N : Note} {alone : Prop} (h0 : E.baseIndent = 0) (hN : E.nested = parserOf (r + 1))
    (hn : roundsBound (textSize (l :: ls)) ≤ r + 1)
    (h : At E S os s (f :: fs) (indentLine i (N.text ++ l) :: ls.map (indentLine (i + N.wide)) ++ rest) c)
    (hc : c ≤ 9) (hf : f.Body E i) (hm : N.Ok alone) (hp : Para (l :: ls) ps) (hr : Ends (i + N.wide) rest)
    (htell : Tells i N (ls.map (indentLine (i + N.wide)) ++ rest)) :
    Leads E S os s (noteFrame N i [paragraphShape (i + N.wide) ps] :: f :: fs) rest 0 := by
  have hbody : noteIndent E i (i + N.text.length) s.ps.cursor.relativeOffset = i + N.wide := by
    have hnext : E.src.drop (s.ps.cursor.relativeOffset + 1) = ls.map (indentLine (i + N.wide)) ++ rest := by
      have := congrArg List.tail h.here
      rw [List.tail_drop] at this
      simpa using this
    unfold noteIndent indentOnSubsequentLines
    rw [hnext]
    unfold Tells at htell
    cases hfind : (ls.map (indentLine (i + N.wide)) ++ rest).find? (fun l => !isBlank l) with
    | none => rw [hfind] at htell; simp only [Option.map_none]; omega
    | some x =>
      rw [hfind] at htell
      simp only [Option.map_some]
      rcases htell with ⟨h1, h2⟩ | ⟨h1, h2⟩
      · rw [if_pos (by omega), h1]
      · rw [if_neg (by omega)]; omega
  have hfirst : ∃ ts, tableOf E f.st = .ok ts ∧ firstTransition (indentLine i (N.text ++ l)) ts = some (noteMatch N i l, noteAct E N) := by
    obtain ⟨ts, ht, hts⟩ := hf.table
    refine ⟨ts, ht, ?_⟩
    rw [hts, note_transition E hm hp.lines.1.toTextLine i]
    have : N.text ++ l = str! ".. " ++ ('[' :: (N.label ++ str! "] " ++ l)) := by simp [Note.text]
    rw [this]
    exact noBreak_dots i _
  obtain ⟨ts, ht, hmatch⟩ := hfirst
  have hbi := bodyIndent_note N i
  refine AtL.enters (new := [noteFrame N i [paragraphShape (i + N.wide) ps]]) (ls := ls.map (indentLine (i + N.wide)) ++ rest) (n := ls.length + 1)
    (f' := f) (lines := indentLine i (N.text ++ l) :: ls.map (indentLine (i + N.wide)) ++ rest) h hc ht hf.notEnd hmatch ?_ rfl
    (by omega) (by simp) (by simp)
  have hp0 := h.pos
  -- the part that is the same for footnotes and citations
  have key : ∀ {s4 : PS}, Pos E S s.ps.cursor s4 0 (f :: (fs ++ os)) (indentLine i (N.text ++ l) :: ls.map (indentLine (i + N.wide)) ++ rest) →
      Does E S s.ps.cursor (do
        P.pushFocus (N.node i)
        let (stack, offset) ← parseFirstNodeBlock E (i + N.wide) (some (i + N.text.length)) (noteState N)
        pure (PushOrPop.push stack, some offset)) s4 (PushOrPop.push [noteState N], some (ls.length + 1)) 0
        ([noteFrame N i [paragraphShape (i + N.wide) ps]] ++ f :: (fs ++ os)) (indentLine i (N.text ++ l) :: ls.map (indentLine (i + N.wide)) ++ rest) := by
    intro s3 p3
    refine (p3.open_named (data := N.node i) (noteState N) (hf.kids _ ?_) ?_ ?_ (note_actions N i)).bind fun s4 p4 => ?_
    · rw [note_kind]; cases N.foot <;> decide
    · rw [note_kind]; cases N.foot <;> decide
    · rw [hbi]; rfl
    unfold parseFirstNodeBlock
    simp only [Option.getD_some]
    have c1 : checkedSub (i + N.text.length) E.baseIndent "mod.rs parse_first_node_block" = .ok (i + N.text.length) := by
      unfold checkedSub; rw [if_neg (by omega)]; congr 1; omega
    have c2 : checkedSub (i + N.wide) E.baseIndent "mod.rs parse_first_node_block" = .ok (i + N.wide) := by
      unfold checkedSub; rw [if_neg (by omega)]; congr 1; omega
    refine Does.bind (a := ([noteState N], ls.length + 1)) (k := 0) (fs := [noteFrame N i [paragraphShape (i + N.wide) ps]] ++ (f :: (fs ++ os)))
      (lines := indentLine i (N.text ++ l) :: ls.map (indentLine (i + N.wide)) ++ rest) ?_ fun s5 p5 => p5.pure _
    refine Does.bind (a := i + N.text.length) ⟨s4, by simp only [P.lift, c1], p4⟩ fun s5 p5 => ?_
    refine Does.bind (a := i + N.wide) ⟨s5, by simp only [P.lift, c2], p5⟩ fun s6 p6 => ?_
    obtain ⟨bf, hread⟩ := readIndented_note (N := N) hm.wide p6.here hp.lines.2 hr
    refine Does.bind (a := (l :: ls, ls.length + 1)) ⟨s6, by simp only [P.indentedBlock, hread], p6⟩ fun s7 p7 => ?_
    dsimp only
    have hrun : ∀ s9 : LoopState, At ⟨l :: ls, i + N.wide, parserOf r⟩ S (f :: (fs ++ os)) s9 [noteFrame N i []] (l :: ls) 0 →
        ∃ frames, frames = [noteFrame N i [paragraphShape (i + N.wide) ps]] ∧
          Leads ⟨l :: ls, i + N.wide, parserOf r⟩ S (f :: (fs ++ os)) s9 frames [] 0 := by
      intro s9 a9
      refine ⟨_, rfl, ?_⟩
      have a9 : At ⟨l :: ls, i + N.wide, parserOf r⟩ S (f :: (fs ++ os)) s9 (noteFrame N i [] :: []) ((l :: ls).map (indentLine 0) ++ []) 0 := by
        have : (l :: ls).map (indentLine 0) ++ [] = l :: ls := by
          rw [List.append_nil]
          conv => rhs; rw [← List.map_id (l :: ls)]
          exact List.map_congr_left fun x _ => rfl
        rw [this]; exact a9
      exact AtL.paragraph (E := ⟨l :: ls, i + N.wide, parserOf r⟩) (i := 0) (by simp) a9 (by omega) (noteFrame_body _ N i []) hp (fun e => by
        unfold noteFrame noteState at e; cases hfo : N.foot <;> rw [hfo] at e <;> cases e) (fun x hx => by cases hx)
    obtain ⟨frames, rfl, hd⟩ := p7.nest (f := noteFrame N i []) (base := i + N.wide) (Q := (· = [noteFrame N i [paragraphShape (i + N.wide) ps]])) hN hn
      (by show (noteState N).live = true; unfold noteState; cases N.foot <;> rfl) (by simp) hrun
    exact hd.bind fun s8 p8 => p8.pure _
  have e3 : (noteMatch N i l).whole.length = i + N.text.length := by simp [noteMatch]
  have hright := atIndent_right (ps := s.ps) h.spine hf.indent
  have key0 := key hp0
  obtain ⟨s', hs', hp'⟩ := key0
  refine ⟨s', ?_, hp'⟩
  unfold noteAct
  cases hfo : N.foot with
  | true =>
    have e1 : (noteMatch N i l).getD .indent = spaces i := by simp [noteMatch, Match.getD, Match.get, hfo]
    have e2 : footnoteKind (noteMatch N i l) = some (.Manual, N.label) := by simp [footnoteKind, noteMatch, Match.get, hfo]
    have e4 : noteLabels s.ps.doc .Manual N.label = some (N.label, N.label) := by
      obtain ⟨hne, hdig⟩ := hm.foot hfo
      simp [noteLabels, normalize_digits hne hdig]
    simp only [if_true]
    unfold bodyFootnote
    rw [e1, e3, h0, Nat.add_zero, Nat.add_zero, e2]
    simp only [P.required, bind, P.bind, pure, P.pure, P.offset, P.doc, e4, List.length_replicate, hbody]
    have := hright (do
        P.pushFocus (N.node i)
        let (stack, offset) ← parseFirstNodeBlock E (i + N.wide) (some (i + N.text.length)) (noteState N)
        pure (PushOrPop.push stack, some offset))
    rw [hs'] at this
    have e5 : N.node i = .Footnote (i + N.wide) .Manual N.label N.label := by simp [Note.node, hfo]
    have e6 : noteState N = .Footnote := by simp [noteState, hfo]
    rw [e5, e6] at this
    simp only [List.map_cons, List.map_nil, List.reverse_singleton, e6]
    exact this
  | false =>
    have e1 : (noteMatch N i l).getD .g1 = spaces i := by simp [noteMatch, Match.getD, Match.get, hfo]
    have e2 : (noteMatch N i l).getD .g2 = N.label := by simp [noteMatch, Match.getD, Match.get, hfo]
    simp only [Bool.false_eq_true, if_false]
    unfold bodyCitation
    rw [e1, e3, h0, Nat.add_zero, Nat.add_zero, e2, note_trim hm hfo]
    simp only [bind, P.bind, P.offset, List.length_replicate, hbody]
    have := hright (do
        P.pushFocus (N.node i)
        let (stack, offset) ← parseFirstNodeBlock E (i + N.wide) (some (i + N.text.length)) (noteState N)
        pure (PushOrPop.push stack, some offset))
    rw [hs'] at this
    have e5 : N.node i = .Citation (i + N.wide) N.label := by simp [Note.node, hfo]
    have e6 : noteState N = .Citation := by simp [noteState, hfo]
    rw [e5, e6] at this
    simp only [List.map_cons, List.map_nil, List.reverse_singleton, e6]
    exact this

end Rustla
