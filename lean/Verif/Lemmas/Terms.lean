import Verif.Lemmas.Marked
/-! # The terms of definition lists -/
namespace Rustla
open Spec

/-! ## Splitting at colons -/

theorem splitColon_step {c : Char} {rest cur : Str} (h : ¬ str! " : " <+: c :: rest) : splitColonAux (c :: rest) cur = splitColonAux rest (c :: cur) := by
  conv => lhs; unfold splitColonAux
  split
  · rename_i r e
    exact absurd ⟨r, by simpa using e.symm⟩ h
  · rename_i e
    obtain ⟨rfl, rfl⟩ := List.cons.inj e
    rfl
  · rename_i e; cases e

theorem splitColon_last : ∀ (p cur : Str), ¬ str! " : " <:+: p → splitColonAux p cur = [cur.reverse ++ p]
  | [], cur, _ => by simp [splitColonAux]
  | c :: p, cur, h => by
    rw [splitColon_step (fun hp => h hp.isInfix), splitColon_last p (c :: cur) (fun hp => h (hp.trans (List.suffix_cons c p).isInfix))]
    simp

theorem splitColon_part : ∀ (p cur rest : Str), ¬ str! " : " <:+: p ++ [' '] →
    splitColonAux (p ++ (str! " : " ++ rest)) cur = (cur.reverse ++ p) :: splitColonAux rest []
  | [], cur, rest, _ => by
    show splitColonAux (' ' :: ':' :: ' ' :: rest) cur = _
    rw [splitColonAux]; simp
  | c :: p, cur, rest, h => by
    rw [List.cons_append, splitColon_step, splitColon_part p (c :: cur) rest (fun hp => h (hp.trans (List.suffix_cons c _).isInfix))]
    · simp
    · rintro ⟨r, hr⟩
      match p with
      | [] =>
        have := congrArg (·[1]?) hr
        simp at this
      | [d] =>
        have h0 := congrArg (·[0]?) hr
        have h1 := congrArg (·[1]?) hr
        simp at h0 h1
        subst h0 h1
        exact h ⟨[], [], rfl⟩
      | d :: e :: p =>
        have h0 := congrArg (·[0]?) hr
        have h1 := congrArg (·[1]?) hr
        have h2 := congrArg (·[2]?) hr
        simp at h0 h1 h2
        subst h0 h1 h2
        exact h ⟨[], p ++ [' '], by simp⟩

theorem Spec.Unsplit.right {p : Str} (h : Unsplit p) : ¬ str! " : " <:+: p ++ [' '] := fun hp => h (hp.trans (List.suffix_cons _ _).isInfix)

theorem Spec.Unsplit.inside {p : Str} (h : Unsplit p) : ¬ str! " : " <:+: p := fun hp => h.right (hp.trans (List.prefix_append _ _).isInfix)

theorem splitColon_classes : ∀ (cs : List Str) (p cur : Str), ¬ str! " : " <:+: p ++ [' '] → (∀ c ∈ cs, Unsplit c) →
    splitColonAux (p ++ (cs.map fun c => str! " : " ++ c).flatten) cur = (cur.reverse ++ p) :: cs
  | [], p, cur, h, _ => by
    rw [List.map_nil, List.flatten_nil, List.append_nil]
    exact splitColon_last p cur fun hp => h (hp.trans (List.prefix_append _ _).isInfix)
  | c :: cs, p, cur, h, hc => by
    rw [List.map_cons, List.flatten_cons, List.append_assoc, splitColon_part p cur _ h,
      splitColon_classes cs c [] (hc c (by simp)).right (fun x hx => hc x (by simp [hx]))]
    simp

/-- Spaces in front of a text do not split it. -/
theorem splitColon_spaces {i : Nat} {x : Char} {t : Str} (_hx : isWs x = false) (h : Unsplit (x :: t)) : ¬ str! " : " <:+: (spaces i ++ x :: t) ++ [' '] := by
  induction i with
  | zero => exact h.right
  | succ i ih =>
    intro hp
    have e : (spaces (i + 1) ++ x :: t) ++ [' '] = ' ' :: ((spaces i ++ x :: t) ++ [' ']) := rfl
    rw [e] at hp
    rcases List.infix_cons_iff.mp hp with hp | hp
    · cases i with
      | zero => exact h hp.isInfix
      | succ i =>
        obtain ⟨r, hr⟩ := hp
        have := congrArg (·[1]?) hr
        simp [spaces, List.replicate_succ] at this
    · exact ih hp

/-- The parts of the line of a term. -/
theorem term_parts {t : Term} (h : t.Ok) (i : Nat) : splitColonAux (indentLine i t.text) [] = (spaces i ++ t.name) :: t.classes := by
  have e : indentLine i t.text = (spaces i ++ t.name) ++ (t.classes.map fun c => str! " : " ++ c).flatten := by
    simp [indentLine, Term.text, spaces]
  rw [e, splitColon_classes t.classes _ [] ?_ (fun c hc => (h.classes c hc).1)]
  · simp
  · cases hn : t.name with
    | nil =>
      have hl := h.line.toTextLine.cons
      obtain ⟨x, r, hx, hw⟩ := hl
      cases hc : t.classes with
      | nil => simp [Term.text, hn, hc] at hx
      | cons c cs =>
        simp [Term.text, hn, hc] at hx
        rw [← hx.1] at hw
        exact absurd hw (by decide)
    | cons x r =>
      have hx : isWs x = false := by
        obtain ⟨y, r', hy, hw⟩ := h.line.toTextLine.cons
        simp [Term.text, hn] at hy
        rw [hy.1]; exact hw
      exact splitColon_spaces hx (hn ▸ h.name)

theorem term_classes {t : Term} (h : t.Ok) : t.classes.filter (fun p => !isBlank p) = t.classes := by
  rw [List.filter_eq_self]
  intro c hc
  simp [(h.classes c hc).2]

/-! ## The rounds of the parser -/

/-- The frame of a definition list with the given terms. -/
abbrev defsFrame (i : Nat) (ss : List Shape) : Frame := ⟨.DefinitionList, .DefinitionList i, ss, []⟩

/-- The frame of a term with the given definition. -/
abbrev termFrame (t : Term) (i : Nat) (ss : List Shape) : Frame := ⟨.ListItem, t.node i, ss, []⟩

theorem termFrame_body (E : Env) (t : Term) (i : Nat) (ss : List Shape) : (termFrame t i ss).Body E (i + (t.deep + 1)) :=
  ⟨.of rfl, .inr (.inr (.inl rfl)), rfl, fun _ => takes_body rfl (by decide)⟩

theorem simple_defs : Simple Kind.DefinitionList := ⟨by decide, by decide, by decide, by decide, by decide⟩
theorem simple_term : Simple Kind.DefinitionListItem := ⟨by decide, by decide, by decide, by decide, by decide⟩

/-- A line of text in front of a line with a larger indentation opens a definition list. -/
theorem AtL.open_defs {E : Env} {S : SectionData} {os : List Frame} {s : LoopState} {f : Frame} {fs : List Frame} {l n : Str} {ls : List Str}
    {c i k : Nat} (h0 : E.baseIndent = 0) (h : At E S os s (f :: fs) (indentLine i l :: n :: ls) c) (hc : c ≤ 9) (hf : f.Body E i)
    (hl : FirstLine l) (hb : ¬ str! "::newcol" <+: l) (hq : f.st = .BlockQuote → ¬ Dashed l) (hn : Front (i + (k + 1)) n) :
    Leads E S os s (defsFrame i [] :: f :: fs) (indentLine i l :: n :: ls) (c + 1) := by
  obtain ⟨d', h1, h2, h3⟩ := h.spine.push (data := .DefinitionList i) .DefinitionList (hf.kids .DefinitionList (by decide)) simple_defs rfl rfl h.calm
  obtain ⟨m, hm, hg⟩ := indented_transition E hl i
  have hnext : E.src[s.ps.cursor.relativeOffset + 1]? = some n := by
    have := congrArg (·[1]?) h.here
    simpa using this
  have hres : bodyText E m s.ps = .ok (.push [.DefinitionList], none) { s.ps with doc := d' } := by
    obtain ⟨x, t, e, hx⟩ := hn.visible
    obtain ⟨m', hm', hg'⟩ := indented_text (t := t) hx (i + (k + 1))
    rw [← e] at hm'
    have hlt : i + (k + 1) > i := by omega
    unfold bodyText textAt
    simp only [hg, hg', List.length_replicate, bind, P.bind, P.offset, hnext, hn.notLine, Bool.false_eq_true, if_false, hm', h0, Nat.add_zero, hlt, if_true,
      atIndent_right h.spine hf.indent, h1, pure, P.pure]
  obtain ⟨ts, ht, hts⟩ := hf.table
  have := step_stays (h.stands hc) ht hf.notEnd ((hts _ (noBreak_text hl.toTextLine hb hq i)).trans hm) hres rfl
    (stack := s.stack ++ [.DefinitionList]) rfl
  refine ⟨_, .step this, ⟨h.here, h2, ?_, ?_, h3.trans h.secs⟩⟩
  · simp [h.stack_cons, stackFor]
  · have := h.count; simp only; omega

/-- A line of text in a definition list. -/
theorem definition_transition (E : Env) {l : Str} (h : FirstLine l) (i : Nat) :
    ∃ m, firstTransition (indentLine i l) (definitionTable E) = some (m, definitionText E) ∧ m.getD .g1 = spaces i :=
  indented_patterns h i ..

/-- A new term of the definition list in focus. -/
theorem AtL.term {E : Env} {S : SectionData} {os : List Frame} {s : LoopState} {fs : List Frame} {t : Term} {n : Str} {ls : List Str} {ss : List Shape}
    {c i : Nat} (h0 : E.baseIndent = 0) (h : At E S os s (defsFrame i ss :: fs) (indentLine i t.text :: n :: ls) c) (hc : c ≤ 9)
    (ht : t.Ok) (hn : Front (i + (t.deep + 1)) n) :
    Leads E S os s (termFrame t i [] :: defsFrame i ss :: fs) (n :: ls) 0 := by
  have hall : childIsAllowed (defsFrame i ss).data.kind (t.node i).kind = .ok true := by
    show childIsAllowed .DefinitionList .DefinitionListItem = _; rfl
  obtain ⟨d', h1, h2, h3⟩ := h.spine.push (data := t.node i) .ListItem hall simple_term rfl rfl h.calm
  obtain ⟨m, hm, hg⟩ := definition_transition E ht.line i
  have hhere : E.src[s.ps.cursor.relativeOffset]? = some (indentLine i t.text) := by
    have := congrArg (·[0]?) h.here
    simpa using this
  have hnext : E.src[s.ps.cursor.relativeOffset + 1]? = some n := by
    have := congrArg (·[1]?) h.here
    simpa using this
  have hres : definitionText E m s.ps = .ok (.push [.ListItem], some 1) { s.ps with doc := d' } := by
    have hle : ¬ (i + (t.deep + 1) ≤ i) := by omega
    have h1 : P.pushFocus (.DefinitionListItem (spaces i ++ t.name) t.classes (i + (t.deep + 1))) s.ps = .ok () { s.ps with doc := d' } := h1
    unfold definitionText
    simp only [hg, List.length_replicate, bind, P.bind, P.offset, hnext, hn.indent, h0, Nat.add_zero, hle, if_false, P.required, hhere, term_parts ht,
      List.head?_cons, Option.getD_some, List.drop_succ_cons, List.drop_zero, term_classes ht, h1, pure, P.pure]
  have hst := h.stands hc
  have := step_moved hst (ts := definitionTable E) rfl (by simp) hm hres (stack := s.stack ++ [.ListItem]) rfl (k := 1) rfl (by omega) (by simp)
  refine ⟨_, .step this, ⟨?_, h2, ?_, Nat.le_refl _, h3.trans h.secs⟩⟩
  · exact drop_incr h.here 1
  · rw [h.stack_cons]; simp [stackFor]

/-- A definition list is left at a line of text in front of a line without larger indentation. -/
theorem AtL.leave_defs {E : Env} {S : SectionData} {os : List Frame} {s : LoopState} {f : Frame} {fs : List Frame} {l : Str} {ls : List Str} {ss : List Shape}
    {c i k : Nat} (h : At E S os s (defsFrame k ss :: f :: fs) (indentLine i l :: ls) c) (hc : c ≤ 9)
    (hl : FirstLine l) (hn : ∀ n, ls.head? = some n → indentOf n ≤ i) :
    Leads E S os s (f.add [.node (.DefinitionList k) ss] :: fs) (indentLine i l :: ls) (c + 1) := by
  obtain ⟨d', h1, h2, h3⟩ := h.spine.leave
  obtain ⟨m, hm, hg⟩ := definition_transition E hl i
  have hnext : E.src[s.ps.cursor.relativeOffset + 1]? = ls.head? := by
    have := congrArg (·[1]?) h.here
    rw [List.head?_eq_getElem?]
    simpa using this
  refine h.left hc (n := s.ps.sectionLevel) (ts := definitionTable E) rfl (by simp) hm ?_ h2 h3
  unfold definitionText
  cases hh : ls.head? with
  | none => simp only [bind, P.bind, P.offset, hnext, hh]; exact h1
  | some n =>
    have hle : indentOf n + E.baseIndent ≤ i + E.baseIndent := by have := hn n hh; omega
    simp only [hg, List.length_replicate, bind, P.bind, P.offset, hnext, hh, hle, if_true]
    exact h1

end Rustla
