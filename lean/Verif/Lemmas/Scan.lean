import Verif.Lemmas.Explicit
import Verif.Props.Scanners
/-! # Scanning directives -/
namespace Rustla
open Spec

/-- The text behind the marker, as the scanner returns it. -/
def Spec.Dir.args (d : Dir) : Option (List Str) := if d.arg = [] then none else some [d.arg]

/-- The options, as the scanner returns them. -/
def Spec.Dir.options (d : Dir) : Option (List (Str × Str)) :=
  if d.opts = [] then none else some (d.opts.foldl (fun m kv => mapInsert m kv.1 kv.2) [])

theorem getLast_filter {α : Type} (p : α → Bool) (l : List α) : (l.filter p).getLast? = l.reverse.find? p := by
  rw [List.getLast?_eq_head?_reverse, ← List.filter_reverse, List.head?_filter]

theorem Spec.Dir.optionOf (d : Dir) (key : Str) : Rustla.optionOf d.options key = d.get key := by
  unfold Dir.options Dir.get
  split
  · rename_i h; rw [h]; rfl
  · unfold Rustla.optionOf
    rw [Option.bind_some, mapGet_fold, getLast_filter]
    simp [mapGet]

/-- Nothing, or a blank line. -/
def Stops (ls : List Str) : Prop := ∀ l, ls.head? = some l → isBlank l = true

theorem Stops.arguments {ls : List Str} (h : Stops ls) (b : Nat) : argumentLines b ls = [] := by
  cases ls with
  | nil => rfl
  | cons l ls =>
    have hl := h l rfl
    unfold argumentLines
    split
    · rfl
    · simp only [trim_trim, hl, Bool.true_or, if_true]

theorem Stops.options {ls : List Str} (h : Stops ls) (b : Nat) : optionLines b ls = ([], !ls.isEmpty) := by
  cases ls with
  | nil => rfl
  | cons l ls =>
    have hl := h l rfl
    simp [optionLines, hl]

theorem Spec.Snug.trim {t : Str} (h : Snug t) : trim t = t := by
  obtain ⟨⟨⟨c, hc, hw⟩, _⟩, e, he, hw'⟩ := h
  have h1 : trimStart t = t := by
    cases t with
    | nil => cases hc
    | cons a t => simp at hc; subst hc; simp [trimStart, hw]
  unfold Rustla.trim
  rw [h1]
  unfold trimEnd
  have : t.reverse.head? = some e := by rw [List.head?_reverse]; exact he
  cases hr : t.reverse with
  | nil => rw [hr] at this; cases this
  | cons a r =>
    rw [hr] at this
    simp at this; subst this
    rw [List.dropWhile_cons, hw']
    simp only [Bool.false_eq_true, if_false]
    rw [← hr, List.reverse_reverse]

theorem Spec.Inset.cons {t : Str} (h : Inset t) : ∃ c s, t = c :: s ∧ isWs c = false := by
  obtain ⟨⟨c, hc, hw⟩, _⟩ := h
  cases t with
  | nil => cases hc
  | cons a s => simp at hc; subst hc; exact ⟨_, _, rfl, hw⟩

theorem Spec.Inset.not_blank {t : Str} (h : Inset t) : isBlank t = false := by
  obtain ⟨c, s, rfl, hc⟩ := h.cons
  exact (isBlank_false_iff _).mpr ⟨c, by simp, hc⟩

theorem trim_spaces (k : Nat) (t : Str) : Rustla.trim (indentLine k t) = Rustla.trim t := by
  have : trimStart (indentLine k t) = trimStart t := by
    unfold indentLine
    induction k with
    | zero => rfl
    | succ k ih =>
      rw [List.replicate_succ, List.cons_append, trimStart, List.dropWhile_cons]
      have : isWs ' ' = true := by decide
      rw [this, if_pos rfl]; exact ih
  unfold Rustla.trim
  rw [this]

theorem optionLine_snug {o : Str × Str} (h : OptionOk o) : ∃ c s e, optionLine o = c :: s ∧ isWs c = false ∧
    (optionLine o).getLast? = some e ∧ isWs e = false := by
  refine ⟨':', o.1 ++ ':' :: behind o.2, ?_⟩
  rcases h.value with hv | hv
  · refine ⟨':', rfl, by decide, ?_, by decide⟩
    unfold optionLine behind
    rw [if_pos hv]
    simp [List.getLast?_cons]
  · obtain ⟨e, he, hw⟩ := hv.2
    refine ⟨e, rfl, by decide, ?_, hw⟩
    have hne : o.2 ≠ [] := by rintro h0; rw [h0] at he; cases he
    unfold optionLine behind
    rw [if_neg hne]
    simp [List.getLast?_cons, List.getLast?_append, he]

theorem optionLine_trim {o : Str × Str} (h : OptionOk o) (k : Nat) : Rustla.trim (indentLine k (optionLine o)) = optionLine o := by
  rw [trim_spaces]
  obtain ⟨c, s, e, h1, h2, h3, h4⟩ := optionLine_snug h
  have h5 : trimStart (optionLine o) = optionLine o := by rw [h1]; simp [trimStart, h2]
  unfold Rustla.trim
  rw [h5]
  unfold trimEnd
  have : (optionLine o).reverse.head? = some e := by rw [List.head?_reverse]; exact h3
  cases hr : (optionLine o).reverse with
  | nil => rw [hr] at this; cases this
  | cons a r =>
    rw [hr] at this
    simp at this; subst this
    rw [List.dropWhile_cons, h4]
    simp only [Bool.false_eq_true, if_false]
    rw [← hr, List.reverse_reverse]

theorem option_isMatch {o : Str × Str} (h : OptionOk o) : reFieldMarker.isMatch (optionLine o) = true := by
  have := option_captures h 0
  unfold indentLine at this
  simp only [List.replicate_zero, List.nil_append] at this
  exact (Re.isMatch_iff _ _).mpr ⟨_, this⟩

theorem option_arguments {o : Str × Str} (h : OptionOk o) (b k : Nat) (ls : List Str) :
    argumentLines b (indentLine k (optionLine o) :: ls) = [] := by
  unfold argumentLines
  split
  · rfl
  · simp only [optionLine_trim h, option_isMatch h, Bool.or_true, if_true]

theorem option_indent {o : Str × Str} (k : Nat) :
    indentOf (indentLine k (optionLine o)) = k ∧ isBlank (indentLine k (optionLine o)) = false := by
  have : isWs ':' = false := by decide
  exact ⟨indentOf_indented this k, indented_not_blank this k⟩

theorem options_scan (k : Nat) : ∀ {opts : List (Str × Str)} {rest : List Str}, (∀ o ∈ opts, OptionOk o) → Stops rest →
    optionLines k (opts.map (fun o => indentLine k (optionLine o)) ++ rest) = (opts, !rest.isEmpty)
  | [], rest, _, h => h.options k
  | o :: opts, rest, ho, h => by
    have h1 := options_scan k (opts := opts) (rest := rest) (fun x hx => ho x (by simp [hx])) h
    have ho' := ho o (by simp)
    have hv : Rustla.trim o.2 = o.2 := by
      rcases ho'.value with e | e
      · rw [e]; rfl
      · exact e.trim
    have hd : (indentLine k (optionLine o)).drop (spaces k ++ optionHead o).length = o.2 := by
      rw [optionLine_eq]
      unfold indentLine
      rw [← List.append_assoc, List.drop_append_of_le_length (by simp), List.drop_eq_nil_of_le (by simp), List.nil_append]
    have e1 : (⟨spaces k ++ optionHead o, o.2, [(.g2, o.1), (.g1, spaces k)]⟩ : Match).getD .g1 = spaces k := rfl
    have e2 : (⟨spaces k ++ optionHead o, o.2, [(.g2, o.1), (.g1, spaces k)]⟩ : Match).getD .g2 = o.1 := rfl
    rw [List.map_cons, List.cons_append, optionLines, (option_indent k).2, option_captures ho' k]
    simp only [e1, e2, Bool.false_eq_true, if_false, List.length_replicate, ne_eq, not_true_eq_false, h1, hd, hv, ho'.key.trim]

/-- The scanner on the arguments of a directive. -/
theorem scan_arguments {E : Env} {d : Dir} (hd : d.Ok) {i b : Nat} {rest : List Str} {s : PS}
    (h : E.src.drop s.cursor.relativeOffset = d.lines i ++ rest) (hr : Stops rest) :
    P.arguments E b (spaces i ++ d.head).length (isBlank d.arg) s =
      .ok d.args { s with cursor := s.cursor.incrementBy 1 } := by
  have hargs : argumentLines b (d.opts.map (fun o => indentLine (i + 3) (optionLine o)) ++ rest) = [] := by
    cases ho : d.opts with
    | nil => exact hr.arguments b
    | cons o os => exact option_arguments (hd.opts o (by rw [ho]; simp)) b _ _
  have hl : d.lines i ++ rest = indentLine i d.marker :: (d.opts.map (fun o => indentLine (i + 3) (optionLine o)) ++ rest) := rfl
  have hmark : (indentLine i d.marker).drop (spaces i ++ d.head).length = d.arg := by
    rw [d.marker_eq]
    unfold indentLine
    rw [← List.append_assoc, List.drop_append_of_le_length (by simp), List.drop_eq_nil_of_le (by simp), List.nil_append]
  rw [hl] at h
  have h1 : E.src.drop (s.cursor.relativeOffset + 1) = d.opts.map (fun o => indentLine (i + 3) (optionLine o)) ++ rest := by
    rw [← List.drop_drop, h]; rfl
  unfold P.arguments scanDirectiveArguments Dir.args
  rcases hd.arg with e | ⟨e, e'⟩
  · have hb : isBlank d.arg = true := by rw [e]; rfl
    rw [hb]
    simp only [if_true, h1, hargs, e]
    rfl
  · have hne : d.arg ≠ [] := by
      obtain ⟨c, t, h, _⟩ := e.cons
      rw [h]; simp
    obtain ⟨c, t, hc, hw⟩ := e.cons
    have hf : reFieldMarker.isMatch d.arg = false := by
      rw [hc] at e' ⊢
      cases hm : reFieldMarker.isMatch (c :: t) with
      | false => rfl
      | true =>
        obtain ⟨m, hm⟩ := (Re.isMatch_iff _ _).mp hm
        rw [field_dead hw e'] at hm; cases hm
    simp only [e.not_blank, Bool.false_eq_true, if_false, h, hmark, hf, Bool.or_false, hargs, if_neg hne]
    rfl

/-- How many lines the options take: a blank line behind them belongs to them. -/
def Spec.Dir.optionCount (d : Dir) (rest : List Str) : Nat :=
  if d.opts = [] then 0 else if rest = [] then d.opts.length else d.opts.length + 1

theorem scan_options {E : Env} {d : Dir} (hd : d.Ok) {i b : Nat} {rest : List Str} {s : PS}
    (h : E.src.drop s.cursor.relativeOffset = d.opts.map (fun o => indentLine (i + 3) (optionLine o)) ++ rest) (hr : Stops rest)
    (hb : d.opts ≠ [] → b = i + 3) :
    P.options E b s = .ok d.options { s with cursor := s.cursor.incrementBy (d.optionCount rest) } := by
  unfold P.options scanDirectiveOptions Dir.options Dir.optionCount
  by_cases ho : d.opts = []
  · rw [ho] at h
    simp only [h, ho, if_true, List.map_nil, List.nil_append, hr.options b, List.isEmpty_nil]
    rfl
  · obtain rfl := hb ho
    have he : d.opts.isEmpty = false := by cases hx : d.opts with
      | nil => exact absurd hx ho
      | cons => rfl
    simp only [h, options_scan (i + 3) hd.opts hr, he, Bool.false_eq_true, if_false, if_neg ho]
    cases rest with
    | nil => rfl
    | cons l rest => rfl

/-- The indentation of the content of a directive. -/
theorem subsequent_options {E : Env} {d : Dir} {i o : Nat} {rest : List Str} (h : E.src.drop o = d.lines i ++ rest)
    (hne : d.opts ≠ []) : indentOnSubsequentLines E.src o = some (i + 3) := by
  unfold indentOnSubsequentLines
  rw [← List.drop_drop, h]
  cases ho : d.opts with
  | nil => exact absurd ho hne
  | cons x xs =>
    have e : (d.lines i ++ rest).drop 1 = indentLine (i + 3) (optionLine x) :: (xs.map (fun o => indentLine (i + 3) (optionLine o)) ++ rest) := by
      unfold Dir.lines; rw [ho]; rfl
    rw [e, List.find?_cons, (option_indent (i + 3)).2]
    simp [option_indent]

theorem find_blanks {gap ls : List Str} (h : ∀ l ∈ gap, isBlank l = true) :
    (gap ++ ls).find? (fun l => !isBlank l) = ls.find? (fun l => !isBlank l) := by
  rw [List.find?_append]
  have : gap.find? (fun l => !isBlank l) = none := by
    rw [List.find?_eq_none]; intro x hx; simp [h x hx]
  rw [this]; rfl

theorem subsequent_content {E : Env} {d : Dir} {i o k : Nat} {gap ls : List Str} {l : Str}
    (h : E.src.drop o = d.lines i ++ (gap ++ l :: ls)) (hg : ∀ l ∈ gap, isBlank l = true) (hl : isBlank l = false)
    (hk : indentOf l = k) (ho : d.opts ≠ [] → k = i + 3) : indentOnSubsequentLines E.src o = some k := by
  by_cases he : d.opts = []
  · unfold indentOnSubsequentLines
    rw [← List.drop_drop, h]
    have e : (d.lines i ++ (gap ++ l :: ls)).drop 1 = gap ++ l :: ls := by unfold Dir.lines; rw [he]; rfl
    rw [e, find_blanks hg, List.find?_cons, hl]
    simp [hk]
  · rw [subsequent_options h he, ho he]

/-- A directive at the indentation of the focused node is handed to its parser. -/
theorem directive_enters {E : Env} {d : Dir} {i j b : Nat} {rest : List Str} {s : PS} (hij : i + E.baseIndent = j)
    (h : E.src.drop s.cursor.relativeOffset = d.lines i ++ rest) (hi : s.doc.sharedData.bodyIndent = some j)
    (hb : (indentOnSubsequentLines E.src s.cursor.relativeOffset).getD (spaces i ++ d.head).length = b) :
    bodyDirective E (directiveMatch d i) s =
      dispatchDirective E (directiveLabel d.name) b (spaces i ++ d.head).length (isBlank d.arg) s := by
  have hget : E.src[s.cursor.relativeOffset]? = some (indentLine i d.marker) := by
    have := congrArg (·[0]?) h
    simpa [Dir.lines] using this
  have hmark : (indentLine i d.marker).drop (spaces i ++ d.head).length = d.arg := by
    rw [d.marker_eq]
    unfold indentLine
    rw [← List.append_assoc, List.drop_append_of_le_length (by simp), List.drop_eq_nil_of_le (by simp), List.nil_append]
  have hp : parentIndentMatches s.doc.sharedData j = .ok .justRight := by
    unfold parentIndentMatches
    rw [hi]; simp
  have e1 : (directiveMatch d i).getD .g1 = spaces i := rfl
  have e2 : (directiveMatch d i).getD .g2 = d.name := rfl
  have e3 : (directiveMatch d i).whole = spaces i ++ d.head := rfl
  unfold bodyDirective currentLine
  simp only [e1, e2, e3, bind, P.bind, P.offset, hget, pure, P.pure, hmark, hb, hij, List.length_replicate, atIndent,
    P.doc, P.lift, hp]

end Rustla
