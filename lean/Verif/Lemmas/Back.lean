import Verif.Lemmas.First
import Verif.Lemmas.Scan
import Verif.Lemmas.Frames
import Verif.Spec.Questions
/-! # Patterns that have to give something back, and the lines of questions -/
namespace Rustla
open Spec

theorem First.skip {a b : Re} {s : Str} {cs : Caps} {q q' : Str × Caps} {pre zs : List (Str × Caps)}
    (h : a.run s cs = pre ++ q :: zs) (hd : ∀ r ∈ pre, b.run r.1 r.2 = []) (h' : First b q.1 q.2 q') : First (.seq a b) s cs q' := by
  obtain ⟨ws, h'⟩ := h'
  have : pre.flatMap (fun r => b.run r.1 r.2) = [] := List.flatMap_eq_nil_iff.mpr hd
  exact ⟨_, by rw [Re.run, h, List.flatMap_append, this, List.flatMap_cons, h']; rfl⟩

/-- A greedy group gives back what the rest of the pattern needs. -/
theorem First.back {g : Grp} {p : Char → Bool} {b : Re} {w x : Str} {cs : Caps} {q : Str × Caps} (hne : w ≠ [])
    (hw : ∀ c ∈ w, p c = true)
    (hd : ∀ y z, x = y ++ z → y ≠ [] → (∀ c ∈ y, p c = true) → ∀ cs, b.run z cs = [])
    (h : First b x ((g, w) :: cs) q) : First (.seq (.cap g (Re.plus true (.cls p))) b) (w ++ x) cs q := by
  cases w with
  | nil => exact absurd rfl hne
  | cons c w =>
    obtain ⟨pre, zs, h1, h2⟩ := star_back (p := p) (x := x) cs (w := w) (n := (w ++ x).length) (by simp) fun z hz => hw z (by simp [hz])
    have hr : (Re.cls p).run (c :: (w ++ x)) cs = [(w ++ x, cs)] := by rw [Re.run, if_pos (hw c (by simp))]
    have hp : (Re.plus true (.cls p)).run (c :: w ++ x) cs = pre ++ (x, cs) :: zs := by
      rw [Re.plus, Re.run, List.cons_append, hr]
      simp only [List.flatMap_cons, List.flatMap_nil, List.append_nil]
      rw [Re.run]; exact h1
    have e : (c :: w ++ x).take ((c :: w ++ x).length - x.length) = c :: w := by
      rw [List.length_append, Nat.add_sub_cancel]; simp
    refine First.skip (q := (x, (g, c :: w) :: cs)) (pre := pre.map fun q => (q.1, (g, (c :: w ++ x).take ((c :: w ++ x).length - q.1.length)) :: q.2))
      (zs := zs.map fun q => (q.1, (g, (c :: w ++ x).take ((c :: w ++ x).length - q.1.length)) :: q.2)) ?_ ?_ h
    · rw [Re.run, hp, List.map_append, List.map_cons, e]
    · intro r hr
      obtain ⟨q0, hq0, rfl⟩ := List.mem_map.mp hr
      obtain ⟨_, y, hy, hyn, hyp⟩ := h2 q0 hq0
      exact hd y q0.1 hy hyn hyp _

theorem First.lit : ∀ {w : Str} {s : Str} {cs : Caps}, First (Re.lit w) (w ++ s) cs (s, cs)
  | [], s, cs => .eps s cs
  | [c], s, cs => .cls (by simp) s cs
  | c :: d :: w, s, cs => .seq (q := (d :: w ++ s, cs)) (.cls (by simp) _ _) (First.lit (w := d :: w))

theorem First.chr (c : Char) (s : Str) (cs : Caps) : First (.chr c) (c :: s) cs (s, cs) := .cls (by simp) s cs

theorem First.chrs {c : Char} {w s : Str} (hne : w ≠ []) (hw : ∀ x ∈ w, x = c) (hs : s.head? ≠ some c) (cs : Caps) :
    First (Re.plus true (.chr c)) (w ++ s) cs (s, cs) :=
  .plus hne (fun x hx => by simp [hw x hx]) (fun x hx => by
    simp only [beq_eq_false_iff_ne]; rintro rfl; exact hs hx) cs

theorem First.chrStar {c : Char} {w s : Str} (hw : ∀ x ∈ w, x = c) (hs : s.head? ≠ some c) (cs : Caps) :
    First (.star true (.chr c)) (w ++ s) cs (s, cs) :=
  .star (fun x hx => by simp [hw x hx]) (fun x hx => by
    simp only [beq_eq_false_iff_ne]; rintro rfl; exact hs hx) cs

/-- The rest of a line. -/
theorem First.line {g : Grp} {t : Str} (hne : t ≠ []) (h : '\n' ∉ t) (cs : Caps) :
    First (.cap g (Re.plus true (.cls clsNotNewline))) t cs ([], (g, t) :: cs) := by
  have := First.cap (g := g) (w := t) (s := []) (First.plus (p := clsNotNewline) (s := []) hne (fun c hc => by
    simp only [clsNotNewline, Bool.not_eq_true', beq_eq_false_iff_ne]; rintro rfl; exact h hc) (by simp) cs)
  rwa [List.append_nil] at this

/-- The indentation of a line. -/
theorem First.indent {g : Grp} {i : Nat} {s : Str} {c : Char} (hs : s.head? = some c) (hc : isWs c = false) (cs : Caps) :
    First (.cap g (.star true (.cls isWs))) (indentLine i s) cs (s, (g, spaces i) :: cs) :=
  .cap (.star (by intro x hx; rw [List.eq_of_mem_replicate hx]; decide) (by intro x hx; rw [hs] at hx; cases hx; exact hc) cs)

/-- An optional mark that is there. -/
theorem First.mark {g : Grp} {m : Char} {s : Str} {cs : Caps} :
    First (Re.opt (.cap g (.chr m))) (m :: s) cs (s, (g, [m]) :: cs) :=
  .opt (.cap (w := [m]) (.chr m s cs))

/-- An optional mark that is not there. -/
theorem First.noMark {g : Grp} {m : Char} {s : Str} {cs : Caps} (h : s.head? ≠ some m) :
    First (Re.opt (.cap g (.chr m))) s cs (s, cs) := by
  refine .opt_none (run_cap_dead ?_)
  cases s with
  | nil => rw [Re.chr, Re.run]
  | cons c s => exact run_chr_ne (fun e => h (by rw [e]; rfl)) _

/-! ## Choices -/

/-- What follows the marks of a choice. -/
def choiceEnd : Re := .seq (.cap .label (Re.plus true (.cls nonWs))) (.seq (.chr '.') (.seq (Re.plus true
    (.chr ' ')) (.cap .answer (Re.plus true (.cls clsNotNewline)))))

theorem nonWs_of {c : Char} (h : isWs c = false) : nonWs c = true := by simp [nonWs, h]

theorem choice_end {label t : Str} (hl : label ≠ [] ∧ ∀ x ∈ label, isWs x = false) (ht : Inset t) (cs : Caps) :
    First choiceEnd (label ++ (str! ". " ++ t)) cs ([], (.answer, t) :: (.label, label) :: cs) := by
  obtain ⟨c, s, rfl, hc⟩ := ht.cons
  have hcs : c ≠ ' ' := by rintro rfl; exact absurd hc (by decide)
  refine First.back hl.1 (fun x hx => nonWs_of (hl.2 x hx)) ?_ ?_
  · intro y z e hy hyw cs
    have : y = ['.'] := by
      cases y with
      | nil => exact absurd rfl hy
      | cons a y =>
        simp at e
        cases y with
        | nil => rw [← e.1]
        | cons b y =>
          simp at e
          have := hyw b (by simp)
          rw [← e.2.1] at this
          exact absurd this (by decide)
    subst this
    simp at e
    rw [← e]
    exact run_seq_dead (run_chr_ne (by decide) _)
  · refine .seq (.chr '.' (' ' :: c :: s) _) (.seq (q := (c :: s, _)) (First.chrs (w := [' ']) (by simp) (by simp) (by simpa using hcs) _) ?_)
    exact .line (by simp) ht.2 _

theorem choice_start {c : Choice} {any : Bool} (h : c.Ok any) : ∃ x s, c.text = x :: s ∧ isWs x = false := by
  obtain ⟨a, l, hl⟩ := List.exists_cons_of_ne_nil h.label.1
  have ha : isWs a = false := h.label.2 a (by rw [hl]; simp)
  unfold Choice.text
  rw [hl]
  cases hs : c.selected
  · cases hm : c.mark with
    | none => exact ⟨_, _, rfl, ha⟩
    | some m => cases m <;> exact ⟨_, _, rfl, by decide⟩
  · exact ⟨_, _, rfl, by decide⟩

/-- The groups of a choice. -/
def Spec.Choice.caps (c : Choice) (i : Nat) : Caps :=
  (.answer, piecesSource c.answer) :: (.label, c.label) :: ((match c.mark with
    | some .right => [(.correct, ['*'])]
    | some .neutral => [(.neutral, ['?'])]
    | none => []) ++ ((if c.selected then [(.preSelected, ['+'])] else []) ++ [(.g1, spaces i)]))

theorem pickOne_captures {c : Choice} (h : c.Ok false) (i : Nat) :
    reAplusPickOneChoice.captures (indentLine i c.text) = some ⟨indentLine i c.text, [], c.caps i⟩ := by
  obtain ⟨x, s, hx, hw⟩ := choice_start h
  have key : First reAplusPickOneChoice (indentLine i c.text ++ []) [] ([], c.caps i) := by
    rw [List.append_nil]
    have hend := fun cs => choice_end h.label h.answer cs
    refine .seq (First.indent (by rw [hx]; rfl) hw _) ?_
    have hstart : c.label.head? ≠ some '+' ∧ c.label.head? ≠ some '*' := ⟨h.start.1, h.start.2.1⟩
    obtain ⟨a, l, hl⟩ := List.exists_cons_of_ne_nil h.label.1
    have hlab : (c.label ++ (str! ". " ++ piecesSource c.answer)).head? = c.label.head? := by rw [hl]; rfl
    have hmark := h.mark rfl
    unfold Choice.text Choice.caps
    cases hs : c.selected
    · cases hm : c.mark with
      | none =>
        simp only [Bool.false_eq_true, if_false, List.nil_append, Option.map_none, Option.getD_none, List.append_assoc]
        exact .seq (.noMark (by rw [hlab]; exact hstart.1)) (.seq (.noMark (by rw [hlab]; exact hstart.2)) (hend _))
      | some m =>
        cases m with
        | neutral => exact absurd hm hmark
        | right =>
          simp only [Bool.false_eq_true, if_false, List.nil_append, Option.map_some, Option.getD_some, List.append_assoc, Mark.text]
          exact .seq (.noMark (by simp)) (.seq .mark (hend _))
    · cases hm : c.mark with
      | none =>
        simp only [if_true, List.nil_append, Option.map_none, Option.getD_none, List.append_assoc]
        exact .seq .mark (.seq (.noMark (by
          show (c.label ++ (str! ". " ++ piecesSource c.answer)).head? ≠ some '*'
          rw [hlab]; exact hstart.2)) (hend _))
      | some m =>
        cases m with
        | neutral => exact absurd hm hmark
        | right =>
          simp only [if_true, List.append_assoc, Option.map_some, Option.getD_some, Mark.text]
          exact .seq .mark (.seq .mark (hend _))
  have := key.captures
  rwa [List.append_nil] at this

theorem pickAny_captures {c : Choice} (h : c.Ok true) (i : Nat) :
    reAplusPickAnyChoice.captures (indentLine i c.text) = some ⟨indentLine i c.text, [], c.caps i⟩ := by
  obtain ⟨x, s, hx, hw⟩ := choice_start h
  have key : First reAplusPickAnyChoice (indentLine i c.text ++ []) [] ([], c.caps i) := by
    rw [List.append_nil]
    have hend := fun cs => choice_end h.label h.answer cs
    refine .seq (First.indent (by rw [hx]; rfl) hw _) ?_
    have hstart := h.start
    obtain ⟨a, l, hl⟩ := List.exists_cons_of_ne_nil h.label.1
    have hlab : (c.label ++ (str! ". " ++ piecesSource c.answer)).head? = c.label.head? := by rw [hl]; rfl
    have hnone : ∀ cs, First (Re.opt (.alt (.cap .neutral (.chr '?')) (.cap .correct (.chr '*'))))
        (c.label ++ (str! ". " ++ piecesSource c.answer)) cs (c.label ++ (str! ". " ++ piecesSource c.answer), cs) := by
      intro cs
      refine .opt_none (run_alt_dead (run_cap_dead ?_) (run_cap_dead ?_)) <;>
        (rw [hl, List.cons_append]; refine run_chr_ne ?_ _; intro e)
      · exact hstart.2.2 (by rw [hl, e]; rfl)
      · exact hstart.2.1 (by rw [hl, e]; rfl)
    have hright : ∀ cs (t : Str), First (Re.opt (.alt (.cap .neutral (.chr '?')) (.cap .correct (.chr '*')))) ('*' :: t) cs
        (t, (.correct, ['*']) :: cs) := fun cs t =>
      .opt (.right (run_cap_dead (run_chr_ne (by decide) _)) (.cap (w := ['*']) (.chr '*' t cs)))
    have hneutral : ∀ cs (t : Str), First (Re.opt (.alt (.cap .neutral (.chr '?')) (.cap .correct (.chr '*')))) ('?' :: t) cs
        (t, (.neutral, ['?']) :: cs) := fun cs t => .opt (.left (.cap (w := ['?']) (.chr '?' t cs)))
    unfold Choice.text Choice.caps
    cases hs : c.selected
    · cases hm : c.mark with
      | none =>
        simp only [Bool.false_eq_true, if_false, List.nil_append, Option.map_none, Option.getD_none, List.append_assoc]
        exact .seq (.noMark (by rw [hlab]; exact hstart.1)) (.seq (hnone _) (hend _))
      | some m =>
        cases m with
        | neutral =>
          simp only [Bool.false_eq_true, if_false, List.nil_append, Option.map_some, Option.getD_some, List.append_assoc, Mark.text]
          exact .seq (.noMark (by simp)) (.seq (hneutral _ _) (hend _))
        | right =>
          simp only [Bool.false_eq_true, if_false, List.nil_append, Option.map_some, Option.getD_some, List.append_assoc, Mark.text]
          exact .seq (.noMark (by simp)) (.seq (hright _ _) (hend _))
    · cases hm : c.mark with
      | none =>
        simp only [if_true, List.nil_append, Option.map_none, Option.getD_none, List.append_assoc]
        exact .seq .mark (.seq (hnone _) (hend _))
      | some m =>
        cases m with
        | neutral =>
          simp only [if_true, List.append_assoc, Option.map_some, Option.getD_some, Mark.text]
          exact .seq .mark (.seq (hneutral _ _) (hend _))
        | right =>
          simp only [if_true, List.append_assoc, Option.map_some, Option.getD_some, Mark.text]
          exact .seq .mark (.seq (hright _ _) (hend _))
  have := key.captures
  rwa [List.append_nil] at this

/-! ## Hints -/

/-- The groups of a hint. -/
def Spec.Hint.caps (h : Hint) (type : AplusQuestionnaireType) (i : Nat) : Caps :=
  (.hint, piecesSource h.text) :: (.label, h.label ++ (if type = .FreeText then [' '] else [])) ::
    ((if h.missing then [(.showNotAnswered, ['!'])] else []) ++ [(.g1, spaces i)])

/-- The pattern of the hints of a question. -/
def hintPattern (type : AplusQuestionnaireType) : Re := if type = .FreeText then reAplusFreetextHint else reAplusPickHint

/-- What follows the label of a hint. -/
def hintEnd : Re := .seq (.star true (.chr ' ')) (.seq (.chr '\u00a7') (.seq (.star true (.chr
    ' ')) (.cap .hint (Re.plus true (.cls clsNotNewline)))))

theorem hint_end {w t : Str} (hw : ∀ x ∈ w, x = ' ') (ht : Inset t) (cs : Caps) :
    First hintEnd (w ++ str! "§ " ++ t) cs ([], (.hint, t) :: cs) := by
  obtain ⟨c, s, rfl, hc⟩ := ht.cons
  have hcs : c ≠ ' ' := by rintro rfl; exact absurd hc (by decide)
  rw [List.append_assoc]
  refine .seq (First.chrStar hw (by simp) cs) (.seq (.chr '§' (' ' :: c :: s) _)
    (.seq (q := (c :: s, _)) (First.chrStar (w := [' ']) (by simp) (by simpa using hcs) _) ?_))
  exact .line (by simp) ht.2 _

theorem hint_dead {z : Str} (h : '§' ∉ z) (cs : Caps) : hintEnd.run z cs = [] := by
  rw [List.eq_nil_iff_forall_not_mem]
  intro q hq
  obtain ⟨q1, h1, h2⟩ := run_seq2 hq
  obtain ⟨q2, h3, _⟩ := run_seq2 h2
  rw [Re.run] at h1
  obtain ⟨_, y, hy, _⟩ := starRun_rest h1
  have h4 := mem_run_chr h3
  apply h
  rw [hy, h4]
  simp

theorem hint_start {h : Hint} {type : AplusQuestionnaireType} (hok : h.Ok type) : ∃ x s, h.line = x :: s ∧ isWs x = false := by
  obtain ⟨c, s, hl, hc⟩ := hok.label.1.1.cons
  unfold Hint.line
  rw [hl]
  cases h.missing
  · exact ⟨_, _, rfl, hc⟩
  · exact ⟨_, _, rfl, by decide⟩

theorem hint_captures {h : Hint} {type : AplusQuestionnaireType} (hok : h.Ok type) (i : Nat) :
    (hintPattern type).captures (indentLine i h.line) = some ⟨indentLine i h.line, [], h.caps type i⟩ := by
  obtain ⟨x, s, hx, hw⟩ := hint_start hok
  obtain ⟨c, l, hl, hc⟩ := hok.label.1.1.cons
  have hne : h.label ≠ [] := by rw [hl]; simp
  have hbang : ∀ (t : Str) cs, First (Re.opt (.cap .showNotAnswered (.chr '!')))
      ((if h.missing then ['!'] else []) ++ (h.label ++ t)) cs
      (h.label ++ t, (if h.missing then [(.showNotAnswered, ['!'])] else []) ++ cs) := by
    intro t cs
    cases h.missing
    · refine .noMark ?_
      show (h.label ++ t).head? ≠ _
      have := hok.label.2
      rw [hl] at this ⊢
      exact this
    · exact .mark
  have e : h.line = (if h.missing then ['!'] else []) ++ (h.label ++ (str! " § " ++ piecesSource h.text)) := by
    unfold Hint.line; simp
  have key : First (hintPattern type) (indentLine i h.line ++ []) [] ([], h.caps type i) := by
    rw [List.append_nil]
    unfold hintPattern Hint.caps
    by_cases ht : type = .FreeText
    · rw [if_pos ht, if_pos ht]
      refine .seq (First.indent (by rw [hx]; rfl) hw _) ?_
      rw [e]
      refine .seq (hbang _ _) ?_
      have e2 : h.label ++ (str! " § " ++ piecesSource h.text) = (h.label ++ [' ']) ++ ('§' :: ' ' :: piecesSource h.text) := by simp
      show First _ (h.label ++ (str! " § " ++ piecesSource h.text)) _ _
      rw [e2]
      refine First.back (by simp) ?_ ?_ (hint_end (w := []) (by simp) hok.snug.1 _)
      · intro c hc
        simp only [clsNotNewline, Bool.not_eq_true', beq_eq_false_iff_ne]
        rintro rfl
        rcases List.mem_append.mp hc with hc | hc
        · exact hok.label.1.1.2 hc
        · simp at hc
      · intro y z e hy _ cs
        refine hint_dead ?_ cs
        intro hz
        cases y with
        | nil => exact hy rfl
        | cons a y =>
          have : ' ' :: piecesSource h.text = y ++ z := by simpa using (List.cons.inj e).2
          have hm : '§' ∈ ' ' :: piecesSource h.text := by rw [this]; simp [hz]
          exact hok.last ht (by simpa using hm)
    · rw [if_neg ht, if_neg ht, List.append_nil]
      refine .seq (First.indent (by rw [hx]; rfl) hw _) ?_
      rw [e]
      refine .seq (hbang _ _) ?_
      refine First.back hne (fun c hc => nonWs_of (hok.word ht c hc)) ?_ (hint_end (w := [' ']) (by simp) hok.snug.1 _)
      intro y z e hy hyw cs
      exfalso
      cases y with
      | nil => exact hy rfl
      | cons a y =>
        have := hyw a (by simp)
        rw [← (List.cons.inj e).1] at this
        exact absurd this (by decide)
  have := key.captures
  rwa [List.append_nil] at this

/-! ## Lines that are not choices -/

theorem marked_of_end {q : Str × Caps} {l : Str} {cs : Caps} (h : q ∈ choiceEnd.run l cs) :
    ∃ w t, l = w ++ '.' :: ' ' :: t ∧ ∀ c ∈ w, isWs c = false := by
  obtain ⟨q1, h1, h2⟩ := run_seq2 h
  obtain ⟨q2, h3, h4⟩ := run_seq2 h2
  obtain ⟨q3, h5, _⟩ := run_seq2 h4
  simp only [Re.run] at h1
  obtain ⟨q0, h6, rfl⟩ := List.mem_map.mp h1
  obtain ⟨w, _, hw, hs⟩ := mem_run_plus h6
  obtain ⟨e, he, hw2, hs2⟩ := mem_run_plus (show q3 ∈ (Re.plus true (.cls (· == ' '))).run q2.1 q2.2 from h5)
  have h7 := mem_run_chr h3
  simp only at h7
  obtain ⟨a, e, rfl⟩ := List.exists_cons_of_ne_nil he
  have : a = ' ' := by simpa using hw2 a (by simp)
  subst this
  refine ⟨w, e ++ q3.1, by rw [hs, h7, hs2]; simp, fun c hc => by simpa [nonWs] using hw c hc⟩

theorem choice_space {q : Str × Caps} {s : Str} {cs : Caps} (h : q ∈ choiceEnd.run (' ' :: s) cs) : False := by
  obtain ⟨q1, h1, _⟩ := run_seq2 h
  simp only [Re.run] at h1
  obtain ⟨q0, h6, _⟩ := List.mem_map.mp h1
  obtain ⟨w, hne, hw, hs⟩ := mem_run_plus h6
  obtain ⟨a, e, rfl⟩ := List.exists_cons_of_ne_nil hne
  have := hw a (by simp)
  rw [← (List.cons.inj hs).1] at this
  exact absurd this (by decide)

/-- The marks of a choice. -/
def choiceMarks (any : Bool) : Re :=
  if any then Re.opt (.alt (.cap .neutral (.chr '?')) (.cap .correct (.chr '*'))) else Re.opt (.cap .correct (.chr '*'))

/-- The pattern of the choices of a question. -/
def choicePattern (any : Bool) : Re := if any then reAplusPickAnyChoice else reAplusPickOneChoice

theorem choicePattern_eq (any : Bool) : choicePattern any = .seq (.cap .g1 (.star true (.cls isWs)))
    (.seq (Re.opt (.cap .preSelected (.chr '+'))) (.seq (choiceMarks any) choiceEnd)) := by
  cases any <;> rfl

theorem opt_marked {g : Grp} {m : Char} {l : Str} {cs : Caps} {q : Str × Caps} (h : q ∈ (Re.opt (.cap g (.chr m))).run l cs) :
    l = q.1 ∨ l = m :: q.1 := by
  rcases mem_opt.mp h with h | h
  · simp only [Re.run] at h
    obtain ⟨q0, h6, rfl⟩ := List.mem_map.mp h
    have := mem_run_chr h6; exact .inr this
  · subst h; exact .inl rfl

theorem marks_marked {any : Bool} {l : Str} {cs : Caps} {q : Str × Caps} (h : q ∈ (choiceMarks any).run l cs) :
    l = q.1 ∨ ∃ m, isWs m = false ∧ l = m :: q.1 := by
  unfold choiceMarks at h
  cases any with
  | false =>
    rcases opt_marked h with h | h
    · exact .inl h
    · exact .inr ⟨'*', by decide, h⟩
  | true =>
    rcases mem_opt.mp h with h | h
    · rcases mem_alt.mp h with h | h
      · simp only [Re.run] at h
        obtain ⟨q0, h6, rfl⟩ := List.mem_map.mp h
        have := mem_run_chr h6; exact .inr ⟨'?', by decide, this⟩
      · simp only [Re.run] at h
        obtain ⟨q0, h6, rfl⟩ := List.mem_map.mp h
        have := mem_run_chr h6; exact .inr ⟨'*', by decide, this⟩
    · subst h; exact .inl rfl

theorem not_choice {any : Bool} {l : Str} (hl : Inset l) (h : ¬ ChoiceMarked l) (i : Nat) :
    (choicePattern any).isMatch (indentLine i l) = false := by
  obtain ⟨c, s, rfl, hc⟩ := hl.cons
  have hdead : ∀ s cs, (Re.seq (Re.opt (.cap .preSelected (.chr '+'))) (.seq (choiceMarks any) choiceEnd)).run (' ' :: s) cs = [] := by
    intro s cs
    rw [List.eq_nil_iff_forall_not_mem]
    intro q hq
    obtain ⟨q1, h1, h2⟩ := run_seq2 hq
    obtain ⟨q2, h3, h4⟩ := run_seq2 h2
    rcases opt_marked h1 with e | e
    · rcases marks_marked h3 with e2 | ⟨m, hm, e2⟩
      · rw [← e2, ← e] at h4; exact choice_space h4
      · rw [← e] at e2
        have := (List.cons.inj e2).1
        rw [← this] at hm
        exact absurd hm (by decide)
    · exact absurd (List.cons.inj e).1 (by decide)
  rw [Bool.eq_false_iff]
  intro hm
  obtain ⟨m, hm⟩ := (Re.isMatch_iff _ _).mp hm
  have hne : (choicePattern any).run (indentLine i (c :: s)) [] ≠ [] := by
    intro e
    rw [(Re.captures_none_iff _ _).mpr e] at hm; cases hm
  obtain ⟨q, hq⟩ := List.exists_mem_of_ne_nil _ hne
  rw [choicePattern_eq] at hq
  unfold indentLine at hq
  rw [run_seq_spaces hdead hc] at hq
  obtain ⟨q1, h1, h2⟩ := run_seq2 hq
  obtain ⟨q2, h3, h4⟩ := run_seq2 h2
  obtain ⟨w, t, hw, hww⟩ := marked_of_end h4
  apply h
  rcases marks_marked h3 with e | ⟨m, hm, e⟩
  · rcases opt_marked h1 with e' | e'
    · exact ⟨w, t, by rw [e', e, hw], hww⟩
    · refine ⟨'+' :: w, t, by rw [e', e, hw]; rfl, ?_⟩
      intro x hx; rcases List.mem_cons.mp hx with rfl | hx
      · decide
      · exact hww x hx
  · rcases opt_marked h1 with e' | e'
    · refine ⟨m :: w, t, by rw [e', e, hw]; rfl, ?_⟩
      intro x hx; rcases List.mem_cons.mp hx with rfl | hx
      · exact hm
      · exact hww x hx
    · refine ⟨'+' :: m :: w, t, by rw [e', e, hw]; rfl, ?_⟩
      intro x hx; rcases List.mem_cons.mp hx with rfl | hx
      · decide
      · rcases List.mem_cons.mp hx with rfl | hx
        · exact hm
        · exact hww x hx

theorem choice_captures {c : Choice} {any : Bool} (h : c.Ok any) (i : Nat) :
    (choicePattern any).captures (indentLine i c.text) = some ⟨indentLine i c.text, [], c.caps i⟩ := by
  cases any
  · exact pickOne_captures h i
  · exact pickAny_captures h i

/-! ## The directives of questions -/

/-- The names of the directives of questions. -/
def questionNames : List Str := [str! "pick-one", str! "pick-any", str! "freetext"]

theorem question_captures {d : Dir} (h : d.Ok) (hn : d.name ∈ questionNames) (i : Nat) :
    reAplusQuestionnaireDirective.captures (indentLine i d.marker) = some (directiveMatch d i) := by
  have e : indentLine i d.marker = (spaces i ++ d.head) ++ d.arg := by
    unfold indentLine; rw [d.marker_eq, List.append_assoc]
  have hm : d.marker = str! ".." ++ ([' '] ++ (d.name ++ (str! "::" ++ behind d.arg))) := by unfold Dir.marker; simp
  have hname : ∀ (t : Str) cs, First (.cap .g2 (.alt (Re.lit (str! "pick-one")) (.alt (Re.lit (str! "pick-any")) (Re.lit (str! "freetext")))))
      (d.name ++ t) cs (t, (.g2, d.name) :: cs) := by
    intro t cs
    refine .cap ?_
    simp only [questionNames, List.mem_cons, List.not_mem_nil, or_false] at hn
    have dead : ∀ {w s : Str}, ¬ w <+: s → (Re.lit w).run s cs = [] := by
      intro w s hw
      rw [List.eq_nil_iff_forall_not_mem]
      intro q hq
      exact hw ⟨q.1, (mem_run_lit hq).symm⟩
    rcases hn with hn | hn | hn <;> rw [hn]
    · exact .left .lit
    · refine .right (dead ?_) (.left .lit)
      rintro ⟨x, hx⟩; simp at hx
    · refine .right (dead ?_) (.right (dead ?_) .lit)
      · rintro ⟨x, hx⟩; simp at hx
      · rintro ⟨x, hx⟩; simp at hx
  have hhead : (d.name ++ (str! "::" ++ behind d.arg)).head? ≠ some ' ' := by
    simp only [questionNames, List.mem_cons, List.not_mem_nil, or_false] at hn
    rcases hn with hn | hn | hn <;> rw [hn] <;> simp
  have hend : ∀ cs, First (.alt (Re.plus true (.chr ' ')) .eos) (behind d.arg) cs (d.arg, cs) := by
    intro cs
    unfold behind
    by_cases ha : d.arg = []
    · rw [if_pos ha, ha]
      exact .right (by simp [Re.plus, Re.chr, Re.run]) ⟨[], by simp [Re.run]⟩
    · rw [if_neg ha]
      obtain ⟨c, s, hcs, hc⟩ := (h.arg.resolve_left ha).1.cons
      refine .left (First.chrs (w := [' ']) (by simp) (by simp) ?_ cs)
      rw [hcs]
      simp only [List.head?_cons, ne_eq, Option.some.injEq]
      rintro rfl
      exact absurd hc (by decide)
  have key : First reAplusQuestionnaireDirective ((spaces i ++ d.head) ++ d.arg) [] (d.arg, [(.g2, d.name), (.g1, spaces i)]) := by
    rw [← e]
    refine .seq (First.indent (s := d.marker) (c := '.') (by rw [hm]; rfl) (by decide) _) ?_
    rw [hm]
    exact .seq .lit (.seq (First.chrs (by simp) (by simp) hhead _) (.seq (hname _ _) (.seq .lit (hend _))))
  rw [e]
  exact key.captures

theorem not_question {l : Str} (hl : Inset l) (h : ¬ str! ".." <+: l) (i : Nat) :
    reAplusQuestionnaireDirective.captures (indentLine i l) = none := by
  obtain ⟨c, s, rfl, hc⟩ := hl.cons
  rw [Re.captures_none_iff, List.eq_nil_iff_forall_not_mem]
  intro q hq
  unfold indentLine reAplusQuestionnaireDirective at hq
  rw [run_seq_spaces (by intro s cs; exact run_seq_dead (run_seq_dead (run_chr_ne (by decide) _))) hc] at hq
  obtain ⟨q1, h1, _⟩ := run_seq2 hq
  exact h ⟨q1.1, (mem_run_lit h1).symm⟩

end Rustla
