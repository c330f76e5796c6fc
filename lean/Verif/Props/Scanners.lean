import Verif.Lemmas.Fields
import Verif.Spec.Blocks
import Verif.Lemmas.Decimal
import Verif.Lemmas.Grow
import Verif.Model.Directives
import Verif.Props.WriterText
/-!
# C36–C38: arguments, options and math blocks of directives
-/
namespace Rustla
open Spec

/-! ## C36: arguments -/

theorem trim_trim (s : Str) : isBlank (trim s) = isBlank s := by
  by_cases h : isBlank s = true
  · rw [trim_of_blank h, h]; rfl
  · have h1 : isBlank s = false := by simpa using h
    rw [h1, isBlank_false_iff]
    refine Classical.byContradiction fun hc => h ?_
    rw [isBlank_iff, ← trim_eq_nil]
    cases ht : trim s with
    | nil => rfl
    | cons c t =>
      exfalso
      have hl : (trim s).getLast? = some ((trim s).getLast (by simp [ht])) := List.getLast?_eq_getLast_of_ne_nil _
      have hw : isWs ((trim s).getLast (by simp [ht])) = true := by
        refine Classical.byContradiction fun h2 => hc ⟨_, List.getLast_mem (by simp [ht]), by simpa using h2⟩
      have h3 : (trim s).getLast? = (((trimStart s).reverse).dropWhile isWs).head? := by
        simp only [trim, trimEnd, List.getLast?_reverse]
      rw [hl] at h3
      have h4 := List.head?_dropWhile_not isWs (trimStart s).reverse
      rw [← h3] at h4
      simp only [hw] at h4
      cases h4

theorem argumentLine_iff (body : Nat) (line : Str) : ArgumentLine body line ↔
    indentOf line = body ∧ ¬ (isBlank (trim line) || reFieldMarker.isMatch (trim line)) = true := by
  unfold ArgumentLine
  rw [← isMatch_field, trim_trim, Bool.or_eq_true, not_or, Bool.not_eq_true, Bool.not_eq_true]

theorem argumentLines_spec (body : Nat) : ∀ lines : List Str,
    (∀ i < (argumentLines body lines).length, ∃ line, lines[i]? = some line ∧
      (argumentLines body lines)[i]? = some (trim line) ∧ ArgumentLine body line) ∧
    ∀ line, lines[(argumentLines body lines).length]? = some line → ¬ ArgumentLine body line := by
  intro lines
  induction lines with
  | nil => exact ⟨fun i h => by simp [argumentLines] at h, fun line h => by simp at h⟩
  | cons l ls ih =>
    by_cases h : ArgumentLine body l
    · have e : argumentLines body (l :: ls) = trim l :: argumentLines body ls := by
        obtain ⟨h1, h2⟩ := (argumentLine_iff body l).1 h
        rw [argumentLines, if_neg (by simpa using h1)]
        simp only
        rw [if_neg h2]
      rw [e]
      refine ⟨fun i hi => ?_, fun line hl => ih.2 line (by simpa using hl)⟩
      cases i with
      | zero => exact ⟨l, rfl, rfl, h⟩
      | succ i => exact ih.1 i (by simpa using hi)
    · have e : argumentLines body (l :: ls) = [] := by
        rw [argumentLine_iff, not_and, not_not] at h
        rw [argumentLines]
        by_cases h1 : indentOf l = body
        · rw [if_neg (by simpa using h1)]
          simp only
          rw [if_pos (h h1)]
        · rw [if_pos h1]
      rw [e]
      exact ⟨fun i hi => by simp at hi, fun line hl => by cases hl; exact h⟩

theorem getElem?_of_drop {src : List Str} {k i : Nat} {x : Option Str} (h : (src.drop k)[i]? = x) : src[k + i]? = x := by
  rwa [List.getElem?_drop] at h

/-- **C36.** Scanning the arguments of a directive, for every source, cursor, indentation and marker.  The scan starts on
the marker line, or on the next line if nothing follows the marker.  It returns the texts of the lines from there that are
arguments, one for each line, it moves the cursor exactly behind them, and it stops at a line that is no argument: a blank
line, an option, or a line with another indentation.  If there is no argument, nothing is returned. -/
theorem C36_arguments (src : List Str) (c : LineCursor) (body first : Nat) (empty : Bool) :
    let r := scanDirectiveArguments src c body first empty
    let start := if empty then c.offset + 1 else c.offset
    let args := r.1.getD []
    r.1 ≠ some [] ∧ r.2.baseline = c.baseline ∧ r.2.offset = start + args.length ∧
    (∀ i < args.length, ∃ line text, src[start + i]? = some line ∧ args[i]? = some text ∧
      Argument (!empty && i == 0) first body line text) ∧
    ∀ line, src[start + args.length]? = some line → ∀ text, ¬ Argument (!empty && args.length == 0) first body line text := by
  intro r start args
  have wrap : ∀ ls : List Str, (if ls.isEmpty then none else some ls) ≠ some [] ∧
      (if ls.isEmpty then none else some ls).getD [] = ls := by
    intro ls; cases ls <;> simp
  cases empty with
  | true =>
    have er : r = scanDirectiveArguments src c body first true := rfl
    unfold scanDirectiveArguments at er
    simp only [if_true] at er
    have es : start = c.offset + 1 := rfl
    have ea : args = argumentLines body (src.drop (c.offset + 1)) := by
      simp only [args, er]; exact (wrap _).2
    have hs := argumentLines_spec body (src.drop (c.offset + 1))
    rw [ea, es]
    refine ⟨by rw [er]; exact (wrap _).1, by rw [er]; rfl, by rw [er]; rfl, fun i hi => ?_, fun line hl text ht => ?_⟩
    · obtain ⟨line, h1, h2, h3⟩ := hs.1 i hi
      exact ⟨line, trim line, getElem?_of_drop h1, h2, rfl, h3⟩
    · rw [← List.getElem?_drop] at hl
      exact hs.2 line hl ht.2
  | false =>
    have er : r = scanDirectiveArguments src c body first false := rfl
    unfold scanDirectiveArguments at er
    simp only [Bool.false_eq_true, if_false] at er
    have es : start = c.offset := rfl
    rw [es]
    split at er
    · rename_i hd
      have ea : args = [] := by simp only [args, er]; rfl
      rw [ea]
      refine ⟨by rw [er]; exact nofun, by rw [er], by rw [er]; rfl, fun i hi => by simp at hi, fun line hl text ht => ?_⟩
      have : src[c.offset]? = none := by
        have := List.drop_eq_nil_iff.1 hd
        exact List.getElem?_eq_none this
      simp [this] at hl
    · rename_i line rest hd
      have hline : src[c.offset]? = some line := by
        have : (src.drop c.offset)[0]? = some line := by rw [show src.drop c.offset = line :: rest from hd]; rfl
        exact getElem?_of_drop this
      have hrest : rest = src.drop (c.offset + 1) := by
        rw [← List.drop_drop, show src.drop c.offset = line :: rest from hd]; rfl
      split at er
      · rename_i hb
        have ea : args = [] := by simp only [args, er]; rfl
        rw [ea]
        refine ⟨by rw [er]; exact nofun, by rw [er], by rw [er]; rfl, fun i hi => by simp at hi, fun line' hl text ht => ?_⟩
        simp only [List.length_nil, Nat.add_zero, hline, Option.some.injEq] at hl
        subst hl
        obtain ⟨h1, h2, h3⟩ := ht
        subst h1
        rw [← isMatch_field] at h3
        simp only [h2, Bool.false_or] at hb
        exact h3 hb
      · rename_i hb
        have ea : args = line.drop first :: argumentLines body rest := by simp only [args, er]; exact (wrap _).2
        rw [ea]
        have hs := argumentLines_spec body rest
        refine ⟨by rw [er]; exact (wrap (line.drop first :: argumentLines body rest)).1, by rw [er]; rfl, by rw [er]; rfl, fun i hi => ?_, fun line' hl text ht => ?_⟩
        · cases i with
          | zero =>
            refine ⟨line, line.drop first, hline, rfl, rfl, ?_, ?_⟩
            · rw [Bool.or_eq_true, not_or] at hb; simpa using hb.1
            · rw [Bool.or_eq_true, not_or] at hb; rw [← isMatch_field]; exact hb.2
          | succ i =>
            obtain ⟨l, h1, h2, h3⟩ := hs.1 i (by simpa using hi)
            refine ⟨l, trim l, ?_, h2, rfl, h3⟩
            rw [hrest] at h1
            have := getElem?_of_drop h1
            rwa [show c.offset + (i + 1) = c.offset + 1 + i by omega]
        · have h1 : rest[(argumentLines body rest).length]? = some line' := by
            rw [hrest, List.getElem?_drop, ← hrest]
            rw [List.length_cons] at hl
            rwa [show c.offset + 1 + (argumentLines body rest).length = c.offset + ((argumentLines body rest).length + 1) by omega]
          exact hs.2 line' h1 ht.2

/-- A directive with an argument behind the marker and another one on the next line: the third line is an option. -/
example : scanDirectiveArguments [str! ".. note:: a", str! "   b ", str! "   :name: x", str! "   c"] ⟨0, 7⟩ 3 10 false =
    (some [str! "a", str! "b"], ⟨2, 7⟩) := by decide +kernel

/-! ## C37: options -/

/-- The parts of an option line are determined by the line. -/
theorem FieldLine_unique {line i n a i' n' a' : Str} (h : FieldLine line i n a) (h' : FieldLine line i' n' a') :
    i = i' ∧ n = n' ∧ a = a' := by
  obtain ⟨⟨h1, h2, h3, h4⟩, h5⟩ := h
  obtain ⟨⟨k1, k2, k3, k4⟩, k5⟩ := h'
  have hl : n.length = n'.length :=
    Nat.le_antisymm (h5 _ _ _ ⟨k1, k2, k3, k4⟩) (k5 _ _ _ ⟨h1, h2, h3, h4⟩)
  have e1 : i = i' := by
    rw [← (split_indent (t := n ++ ':' :: a) h2).1, ← (split_indent (t := n' ++ ':' :: a') k2).1]
    rw [List.append_assoc] at h1 k1
    rw [← List.cons_append, ← List.cons_append, ← h1, ← k1]
  subst e1
  rw [h1, List.append_assoc, List.append_assoc] at k1
  have e2 := List.append_cancel_left k1
  rw [List.cons_append, List.cons_append, List.cons.injEq] at e2
  obtain ⟨e3, e4⟩ := List.append_inj e2.2 hl
  exact ⟨rfl, e3, by simpa using e4⟩

theorem OptionLine_unique {b : Nat} {line n v n' v' : Str} (h : OptionLine b line n v) (h' : OptionLine b line n' v') :
    n = n' ∧ v = v' := by
  obtain ⟨ws, a, h1, _, rfl⟩ := h
  obtain ⟨ws', a', k1, _, rfl⟩ := h'
  obtain ⟨_, rfl, rfl⟩ := FieldLine_unique h1 k1
  exact ⟨rfl, rfl⟩

theorem FieldName_trim {s : Str} (h : FieldName s) : trim s = s := by
  obtain ⟨⟨a, h1, h2⟩, ⟨z, h3, h4, _⟩, _⟩ := h
  have e : trimStart s = s := by
    cases s with
    | nil => rfl
    | cons c s => cases h1; simp [trimStart, h2]
  unfold trim trimEnd
  rw [e]
  rw [List.getLast?_eq_head?_reverse] at h3
  have : s.reverse.dropWhile isWs = s.reverse := by
    cases hr : s.reverse with
    | nil => rfl
    | cons c t => rw [hr] at h3; cases h3; simp [h4]
  rw [this, List.reverse_reverse]

theorem option_not_blank {b : Nat} {line n v : Str} (h : OptionLine b line n v) : isBlank line = false := by
  obtain ⟨ws, a, ⟨⟨h1, _⟩, _⟩, _⟩ := h
  rw [isBlank_false_iff, h1]
  exact ⟨':', by simp, by decide⟩

/-- One step of the scan. -/
theorem optionLines_cons (b : Nat) (line : Str) (rest : List Str) :
    (∃ n v, OptionLine b line n v ∧
      optionLines b (line :: rest) = ((n, v) :: (optionLines b rest).1, (optionLines b rest).2)) ∨
    ((∀ n v, ¬ OptionLine b line n v) ∧ optionLines b (line :: rest) = ([], isBlank line)) := by
  rw [optionLines]
  by_cases hb : isBlank line = true
  · rw [if_pos hb, hb]
    exact .inr ⟨fun n v h => (by have := option_not_blank h; rw [hb] at this; cases this), rfl⟩
  · rw [if_neg hb]
    rw [Bool.not_eq_true] at hb
    cases hm : reFieldMarker.captures line with
    | none =>
      refine .inr ⟨fun n v h => ?_, by rw [hb]⟩
      obtain ⟨ws, a, ⟨h1, _⟩, _⟩ := h
      have := (isMatch_field line).2 ⟨_, _, _, h1⟩
      obtain ⟨m, hm'⟩ := (Re.isMatch_iff _ _).1 this
      rw [hm] at hm'; cases hm'
    | some m =>
      obtain ⟨after, h1, h2⟩ := captures_field hm
      simp only
      split
      · rename_i hne
        refine .inr ⟨fun n v h => ?_, by rw [hb]⟩
        obtain ⟨ws, a, k1, k2, _⟩ := h
        obtain ⟨rfl, _⟩ := FieldLine_unique h1 k1
        exact hne k2
      · rename_i he
        rw [Decidable.not_not] at he
        refine .inl ⟨m.getD .g2, trim after, ⟨_, after, h1, he, rfl⟩, ?_⟩
        rw [h2, FieldName_trim h1.1.2.2.1]

theorem optionLines_spec (b : Nat) : ∀ lines : List Str,
    (∀ i (h : i < (optionLines b lines).1.length), ∃ line, lines[i]? = some line ∧
      OptionLine b line ((optionLines b lines).1[i]).1 ((optionLines b lines).1[i]).2) ∧
    (∀ line, lines[(optionLines b lines).1.length]? = some line → ∀ n v, ¬ OptionLine b line n v) ∧
    ((optionLines b lines).2 = true ↔ ∃ line, lines[(optionLines b lines).1.length]? = some line ∧ isBlank line = true) := by
  intro lines
  induction lines with
  | nil => exact ⟨fun i h => by simp [optionLines] at h, fun line h => by simp at h, by simp [optionLines]⟩
  | cons l ls ih =>
    rcases optionLines_cons b l ls with ⟨n, v, h1, h2⟩ | ⟨h1, h2⟩
    · rw [h2]
      refine ⟨fun i hi => ?_, fun line hl => ih.2.1 line (by simpa using hl), ?_⟩
      · cases i with
        | zero => exact ⟨l, rfl, h1⟩
        | succ i => exact ih.1 i (by simpa using hi)
      · simpa using ih.2.2
    · rw [h2]
      refine ⟨fun i hi => by simp at hi, fun line hl => by cases hl; exact h1, by simp⟩

/-- A map filled with entries answers with the last entry for a key. -/
theorem mapGet_fold (opts : List (Str × Str)) (key : Str) : ∀ m : List (Str × Str),
    mapGet (opts.foldl (fun m kv => mapInsert m kv.1 kv.2) m) key =
      (((opts.filter (·.1 = key)).getLast?).map (·.2)).or (mapGet m key) := by
  have hins : ∀ (m : List (Str × Str)) (k v : Str), mapGet (mapInsert m k v) key =
      if k = key then some v else mapGet m key := by
    intro m k v
    induction m with
    | nil => by_cases h : k = key <;> simp [mapInsert, mapGet, h]
    | cons e m ih =>
      obtain ⟨k', v'⟩ := e
      by_cases h : k' = k
      · subst h; by_cases h2 : k' = key <;> simp [mapInsert, mapGet, h2]
      · simp only [mapInsert, if_neg h, mapGet, ih]
        by_cases h2 : k' = key
        · subst h2; simp [Ne.symm h]
        · simp [h2]
  induction opts with
  | nil => intro m; simp
  | cons e opts ih =>
    intro m
    rw [List.foldl_cons, ih, hins, List.filter_cons]
    by_cases h : e.1 = key
    · simp only [h, decide_true, if_true]
      cases hf : opts.filter (·.1 = key) with
      | nil => simp
      | cons a l =>
        rw [List.getLast?_cons_cons, List.getLast?_eq_getLast_of_ne_nil (List.cons_ne_nil a l)]
        rfl
    · simp [h]

/-- **C37.** Scanning the options of a directive, for every source, cursor and indentation.  There is a list of all
options in the option block, one for each line from the cursor on, in order, up to the first line that is no option with
the indentation of the directive.  If the list is empty, nothing is returned and the cursor stays.  Otherwise every option
name is mapped to the value of its last occurrence (and names that do not occur to nothing), and the cursor is moved behind
the options, and behind the blank line that ends them if there is one. -/
theorem C37_options (src : List Str) (c : LineCursor) (body : Nat) :
    ∃ opts : List (Str × Str),
      (∀ i (h : i < opts.length), ∃ line, src[c.offset + i]? = some line ∧ OptionLine body line opts[i].1 opts[i].2) ∧
      (∀ line, src[c.offset + opts.length]? = some line → ∀ n v, ¬ OptionLine body line n v) ∧
      ((scanDirectiveOptions src c body).1 = none ↔ opts = []) ∧
      (∀ key, optionOf (scanDirectiveOptions src c body).1 key = ((opts.filter (·.1 = key)).getLast?).map (·.2)) ∧
      (scanDirectiveOptions src c body).2.baseline = c.baseline ∧
      (scanDirectiveOptions src c body).2.offset = c.offset + opts.length +
        (if opts ≠ [] ∧ (src[c.offset + opts.length]?).any isBlank = true then 1 else 0) := by
  obtain ⟨h1, h2, h3⟩ := optionLines_spec body (src.drop c.offset)
  refine ⟨(optionLines body (src.drop c.offset)).1, fun i hi => ?_, fun line hl => ?_, ?_⟩
  · obtain ⟨line, k1, k2⟩ := h1 i hi
    exact ⟨line, getElem?_of_drop k1, k2⟩
  · exact h2 line (by rwa [List.getElem?_drop])
  · have hb : (optionLines body (src.drop c.offset)).2 =
        (src[c.offset + (optionLines body (src.drop c.offset)).1.length]?).any isBlank := by
      rw [Bool.eq_iff_iff, h3, Option.any_eq_true, List.getElem?_drop]
    unfold scanDirectiveOptions
    simp only
    cases he : (optionLines body (src.drop c.relativeOffset)).1 with
    | nil =>
      have he' : (optionLines body (src.drop c.offset)).1 = [] := he
      simp [he', optionOf]
    | cons e es =>
      have he' : (optionLines body (src.drop c.offset)).1 = e :: es := he
      rw [he'] at hb ⊢
      have hb' : (optionLines body (src.drop c.relativeOffset)).2 = (src[c.offset + (e :: es).length]?).any isBlank := hb
      simp only [List.isEmpty_cons, Bool.false_eq_true, if_false, hb']
      refine ⟨by simp, fun key => ?_, ?_, ?_⟩
      · simp only [optionOf, Option.bind_some]
        rw [mapGet_fold]
        simp [mapGet]
      · split <;> rfl
      · by_cases hx : (src[c.offset + (e :: es).length]?).any isBlank = true
        · rw [if_pos hx, if_pos ⟨List.cons_ne_nil _ _, hx⟩]; rfl
        · rw [if_neg hx, if_neg (fun h => hx h.2)]; rfl

/-- Three options, one of them given twice, and the blank line behind them; the last line is not an option. -/
example : scanDirectiveOptions [str! "  :a: 1", str! "  :b c: 2", str! "  :a: 3 ", [], str! "  :d: 4"] ⟨0, 7⟩ 2 =
    (some [(str! "a", str! "3"), (str! "b c", str! "2")], ⟨4, 7⟩) := by decide +kernel

example : OptionLine 2 (str! "  :a: 3 ") (str! "a") (str! "3") := by
  rcases optionLines_cons 2 (str! "  :a: 3 ") [] with ⟨n, v, h1, h2⟩ | ⟨_, h2⟩
  · have : optionLines 2 [str! "  :a: 3 "] = ([(str! "a", str! "3")], false) := by decide +kernel
    rw [this] at h2
    simp only [Prod.mk.injEq, List.cons.injEq] at h2
    obtain ⟨⟨⟨rfl, rfl⟩, _⟩, _⟩ := h2
    exact h1
  · exact absurd h2 (by decide +kernel)

/-! ## C38: math blocks -/

theorem Spec.Groups.cons_blank {l : Str} {ls : List Str} {gs : List (List Str)} (hl : isBlank l = true) (h : Groups ls gs) :
    Groups (l :: ls) gs := by
  cases h with
  | blank _ h => exact .blank _ (by simpa [hl] using h)
  | group bs g rest gs h1 h2 h3 h4 h5 =>
    have := Groups.group (l :: bs) g rest gs (by simpa [hl] using h1) h2 h3 h4 h5
    simpa using this

/-- Nothing but blank lines is left out, and the groups are in order. -/
theorem Spec.Groups.flatten {ls : List Str} {gs : List (List Str)} (h : Groups ls gs) :
    gs.flatten = ls.filter (fun l => !isBlank l) ∧ ∀ g ∈ gs, g ≠ [] := by
  induction h with
  | blank bs h =>
    refine ⟨?_, by simp⟩
    symm
    rw [List.flatten_nil, List.filter_eq_nil_iff]
    intro l hl; simp [h l hl]
  | group bs g rest gs h1 h2 h3 h4 _ ih =>
    have e1 : bs.filter (fun l => !isBlank l) = [] := by
      rw [List.filter_eq_nil_iff]; intro l hl; simp [h1 l hl]
    have e2 : g.filter (fun l => !isBlank l) = g := by
      rw [List.filter_eq_self]; intro l hl; simp [h3 l hl]
    refine ⟨?_, ?_⟩
    · rw [List.filter_append, List.filter_append, e1, e2, List.flatten_cons, ih.1]; rfl
    · intro x hx
      rcases List.mem_cons.1 hx with rfl | hx
      · exact h2
      · exact ih.2 x hx

/-- The groups of a text are determined by the text. -/
theorem Spec.Groups.unique {ls : List Str} {gs gs' : List (List Str)} (h : Groups ls gs) (h' : Groups ls gs') : gs = gs' := by
  have drop_blanks : ∀ (bs rest : List Str), (∀ l ∈ bs, isBlank l = true) →
      (bs ++ rest).dropWhile isBlank = rest.dropWhile isBlank := fun bs rest hb => List.dropWhile_append_of_pos hb
  have front : ∀ (bs g rest : List Str), (∀ l ∈ bs, isBlank l = true) → g ≠ [] → (∀ l ∈ g, isBlank l = false) →
      (bs ++ g ++ rest).dropWhile isBlank = g ++ rest := by
    intro bs g rest h1 h2 h3
    rw [List.append_assoc, drop_blanks _ _ h1]
    cases g with
    | nil => exact absurd rfl h2
    | cons a g => simp [h3 a (List.mem_cons_self ..)]
  have cut : ∀ (g rest : List Str), (∀ l ∈ g, isBlank l = false) → (∀ l, rest.head? = some l → isBlank l = true) →
      (g ++ rest).takeWhile (fun l => !isBlank l) = g ∧ (g ++ rest).dropWhile (fun l => !isBlank l) = rest := by
    intro g rest h1 h2
    have hp : ∀ l ∈ g, (fun l => !isBlank l) l = true := fun l hl => by simp [h1 l hl]
    constructor
    · rw [List.takeWhile_append_of_pos hp]
      cases rest with
      | nil => simp
      | cons r rest => simp [h2 r rfl]
    · rw [List.dropWhile_append_of_pos hp]
      cases rest with
      | nil => simp
      | cons r rest => simp [h2 r rfl]
  induction h generalizing gs' with
  | blank bs h =>
    generalize hls : bs = ls at h'
    cases h' with
    | blank _ _ => rfl
    | group bs' g rest gs h1 h2 h3 _ _ =>
      subst hls
      obtain ⟨a, ha⟩ := List.exists_mem_of_ne_nil g h2
      have := h a (by simp [ha])
      rw [h3 a ha] at this; cases this
  | group bs g rest gs h1 h2 h3 h4 _ ih =>
    generalize hls : bs ++ g ++ rest = ls at h'
    cases h' with
    | blank _ h =>
      obtain ⟨a, ha⟩ := List.exists_mem_of_ne_nil g h2
      have := h a (by rw [← hls]; simp [ha])
      rw [h3 a ha] at this; cases this
    | group bs' g' rest' gs' k1 k2 k3 k4 k5 =>
      have e := congrArg (List.dropWhile isBlank) hls
      rw [front _ _ _ h1 h2 h3, front _ _ _ k1 k2 k3] at e
      have e1 := congrArg (List.takeWhile fun l => !isBlank l) e
      have e2 := congrArg (List.dropWhile fun l => !isBlank l) e
      rw [(cut _ _ h3 h4).1, (cut _ _ k3 k4).1] at e1
      rw [(cut _ _ h3 h4).2, (cut _ _ k3 k4).2] at e2
      subst e1; subst e2
      rw [ih k5]

/-- The text that is collected for a group of lines. -/
def blockText (g : List Str) : Str := (g.map ('\n' :: ·)).flatten

theorem blockText_blank {g : List Str} (h : ∀ l ∈ g, isBlank l = false) : isBlank (blockText g) = g.isEmpty := by
  cases g with
  | nil => rfl
  | cons l g =>
    rw [List.isEmpty_cons, isBlank_false_iff]
    obtain ⟨c, hc, hw⟩ := (isBlank_false_iff l).1 (h l (List.mem_cons_self ..))
    exact ⟨c, by simp [blockText, hc], hw⟩

theorem mathBlocksFrom_spec (lines : List Str) : ∀ cur : List Str, (∀ l ∈ cur, isBlank l = false) →
    ∃ gs, Groups (cur ++ lines) gs ∧ mathBlocksFrom (blockText cur) lines = gs.map blockText := by
  induction lines with
  | nil =>
    intro cur hc
    rw [mathBlocksFrom, blockText_blank hc]
    cases cur with
    | nil => exact ⟨[], .blank _ (by simp), rfl⟩
    | cons l ls =>
      refine ⟨[l :: ls], ?_, rfl⟩
      have := Groups.group [] (l :: ls) [] [] (by simp) (by simp) hc (by simp) (.blank _ (by simp))
      simpa using this
  | cons line rest ih =>
    intro cur hc
    rw [mathBlocksFrom, blockText_blank hc]
    by_cases hl : isBlank line = true
    · simp only [hl, Bool.not_true, Bool.false_eq_true, if_false]
      obtain ⟨gs, h1, h2⟩ := ih [] (by simp)
      cases cur with
      | nil => exact ⟨gs, .cons_blank hl h1, h2⟩
      | cons l ls =>
        refine ⟨(l :: ls) :: gs, ?_, ?_⟩
        · have := Groups.group [] (l :: ls) (line :: rest) gs (by simp) (by simp) hc (by simpa using hl) (.cons_blank hl h1)
          simpa using this
        · simp only [List.isEmpty_cons, Bool.not_false, if_true, List.map_cons]
          rw [← h2]; rfl
    · rw [Bool.not_eq_true] at hl
      simp only [hl, Bool.not_false, if_true]
      obtain ⟨gs, h1, h2⟩ := ih (cur ++ [line]) (by
        intro l h; rcases List.mem_append.1 h with h | h
        · exact hc l h
        · rw [List.mem_singleton.1 h]; exact hl)
      refine ⟨gs, by simpa using h1, ?_⟩
      rw [← h2]; simp [blockText]

theorem blockText_trim (g : List Str) : trim (blockText g) = trim (joinWith ['\n'] g) := by
  cases g with
  | nil => rfl
  | cons l g =>
    have e : ∀ (l : Str) (g : List Str), blockText (l :: g) = '\n' :: joinWith ['\n'] (l :: g) := by
      intro l g
      induction g generalizing l with
      | nil => simp [blockText, joinWith]
      | cons m g ih =>
        have h1 : blockText (l :: m :: g) = '\n' :: l ++ blockText (m :: g) := by simp [blockText]
        rw [h1, ih m, joinWith]; simp
    rw [e]
    unfold trim
    congr 1

/-- The name of the `i`-th of `n` blocks: the name of the directive, with the number of the block if there are several. -/
def blockName (name : Option Str) (n i : Nat) : Option Str := name.map fun x => if n = 1 then x else x ++ decimal (i + 1)

theorem mathNodes_some (name cls : Option Str) (blocks : List Str) : ∀ k, mathNodes name cls (some k) blocks =
    blocks.mapIdx fun i b => .MathBlock (trim b) (name.map fun x => x ++ decimal (k + i + 1)) cls := by
  induction blocks with
  | nil => intro k; rfl
  | cons b bs ih =>
    intro k
    rw [mathNodes, List.mapIdx_cons, Option.map_some, ih]
    congr 1
    congr 1
    funext i b
    rw [show k + 1 + i + 1 = k + (i + 1) + 1 by omega]

theorem mathNodes_eq (name cls : Option Str) (gs : List (List Str)) :
    mathNodes name cls (if (gs.map blockText).length = 1 then none else some 0) (gs.map blockText) =
      gs.mapIdx fun i g => .MathBlock (trim (joinWith ['\n'] g)) (blockName name gs.length i) cls := by
  rw [List.length_map]
  by_cases h : gs.length = 1
  · rw [if_pos h]
    obtain ⟨g, rfl⟩ := List.length_eq_one_iff.1 h
    simp [mathNodes, blockText_trim, blockName]
  · rw [if_neg h, mathNodes_some]
    apply List.ext_getElem
    · simp
    · intro i h1 h2
      simp [blockText_trim, blockName, h]

/-- Pushing nodes that are not footnotes appends them to the children of the focused node. -/
theorem push_children {d d' : DocTree} {data : NodeType} (h1 : data.kind ≠ .Footnote) (h2 : data.kind ≠ .FootnoteReference)
    (h : d.pushData data = .ok (true, d')) :
    ∃ cs n, d.tree.node.children = some cs ∧ d'.tree.node.children = some (cs ++ [n]) ∧ n.data = data := by
  have hd := hyperref_data d data h1 h2
  unfold DocTree.pushData at h
  simp only at h
  generalize hh : d.hyperrefActions data = ha at h
  obtain ⟨ls, data', d1⟩ := ha
  have e1 : d1.tree = d.tree := by have := DocTree.hyperref_tree d data; rw [hh] at this; exact this
  have e5 : data' = data := by rw [hh] at hd; exact hd
  generalize hc : d1.takeClasses = hcl at h
  obtain ⟨cl, d2⟩ := hcl
  have e3 : d2.tree = d.tree := by have := DocTree.takeClasses_tree d1; rw [hc] at this; rw [← e1]; exact this
  simp only [e3, Zipper.pushData] at h
  cases hp : d.tree.pushChild (TreeNode.new data' d2.nodeCount ls cl) with
  | error e => simp [hp, bind, Except.bind] at h
  | ok o =>
    cases o with
    | none => simp [hp, bind, Except.bind, pure, Except.pure] at h
    | some z1 =>
      obtain ⟨ha, cs, hcs, rfl⟩ := childIsAllowed_ok_of_push hp
      simp only [hp, bind, Except.bind, pure, Except.pure, Except.ok.injEq, Prod.mk.injEq] at h
      obtain ⟨_, rfl⟩ := h
      exact ⟨cs, _, hcs, TreeNode.children_setChildren .., e5⟩

theorem pushAll_children : ∀ (nodes : List NodeType) (s s' : PS),
    (∀ n ∈ nodes, n.kind ≠ .Footnote ∧ n.kind ≠ .FootnoteReference) → P.pushAll nodes s = .ok () s' →
    nodes = [] ∨ ∃ cs new, s.doc.tree.node.children = some cs ∧ s'.doc.tree.node.children = some (cs ++ new) ∧
      new.map (·.data) = nodes := by
  intro nodes
  induction nodes with
  | nil => intro s s' _ _; exact .inl rfl
  | cons n ns ih =>
    intro s s' hn h
    right
    simp only [P.pushAll, bind, P.bind, P.push, P.orFail] at h
    cases hp : s.doc.pushData n with
    | error e => simp [hp] at h
    | ok q =>
      obtain ⟨b, d⟩ := q
      cases b with
      | false => simp [hp] at h
      | true =>
        simp only [hp] at h
        obtain ⟨cs, m, h1, h2, h3⟩ := push_children (hn n (List.mem_cons_self ..)).1 (hn n (List.mem_cons_self ..)).2 hp
        rcases ih _ _ (fun x hx => hn x (List.mem_cons_of_mem _ hx)) h with rfl | ⟨cs', new, k1, k2, k3⟩
        · cases h
          exact ⟨cs, [m], h1, h2, by simp [h3]⟩
        · simp only at k1
          rw [h2] at k1
          cases k1
          exact ⟨cs, m :: new, h1, by rw [k2]; simp, by simp [h3, k3]⟩

/-- **C38.** For every source and state of the parser: when a math directive without arguments is parsed successfully, its
content is a list of at least one group of lines separated by blank lines, and exactly one math block for each of the groups
is appended to the children of the focused node, in order, with the lines of the group as its text, and with the name of the
directive, if it has one, as its name, followed by the number of the group if there are several. -/
theorem C38_math_blocks (E : Env) (body first : Nat) (empty : Bool) (s s' : PS) (mv : Moves)
    (ha : (scanDirectiveArguments E.src s.cursor body first empty).1 = none)
    (h : parseMathBlock E body first empty s = .ok mv s') :
    let options := scanDirectiveOptions E.src (scanDirectiveArguments E.src s.cursor body first empty).2 body
    ∃ (lines : List Str) (indent offset : Nat) (blank : Bool) (gs : List (List Str)) (cs new : List TreeNode),
      readIndentedBlock E.src options.2.offset false true (some body) (some body) false = .ok (.ok lines indent offset blank) ∧
      Groups lines gs ∧ gs ≠ [] ∧ mv = (.neither, some offset) ∧
      s.doc.tree.node.children = some cs ∧ s'.doc.tree.node.children = some (cs ++ new) ∧
      new.map (·.data) =
        gs.mapIdx fun i g => .MathBlock (trim (joinWith ['\n'] g))
          (blockName (optionOf options.1 (str! "name")) gs.length i) (optionOf options.1 (str! "class")) := by
  intro options
  unfold parseMathBlock at h
  simp only [bind, P.bind, P.arguments, P.options, ha, P.indentedBlock] at h
  split at h
  · rename_i a s1 hb
    split at hb
    · cases hb
    · rename_i lines indent offset blank hr
      cases hb
      obtain ⟨gs, k1, k2⟩ := mathBlocksFrom_spec lines [] (by simp)
      have k2' : mathBlocks lines = gs.map blockText := k2
      simp only [k2'] at h
      split at h
      · simp [P.failed] at h
      · rename_i hne
        have hgs : gs ≠ [] := by rintro rfl; exact hne rfl
        rw [mathNodes_eq] at h
        simp only [P.bind] at h
        split at h
        · rename_i u s2 hp
          cases h
          have hk := pushAll_children _ _ _ (by
            intro n hn
            obtain ⟨i, hi, rfl⟩ := List.mem_mapIdx.1 hn
            exact ⟨Kind.noConfusion, Kind.noConfusion⟩) hp
          rcases hk with hk | ⟨cs, new, e1, e2, e3⟩
          · exact absurd (congrArg List.length hk) (by simpa using hgs)
          · exact ⟨lines, indent, offset, blank, gs, cs, new, hr, by simpa using k1, hgs, rfl, e1, e2, e3⟩
        · cases h
        · cases h
    · cases hb
  · cases h
  · cases h

/-- **C38 (names).** The names of the blocks of one directive are pairwise different. -/
theorem C38_names (name : Str) (n i j : Nat) (hi : i < n) (hj : j < n)
    (h : blockName (some name) n i = blockName (some name) n j) : i = j := by
  unfold blockName at h
  by_cases hn : n = 1
  · omega
  · simp only [Option.map_some, if_neg hn, Option.some.injEq, List.append_cancel_left_eq] at h
    have := decimal_injective h
    omega

/-- The complete output for a math directive with two groups of lines and a name. -/
example : (transpile 40 (sampleEnv false) (str! "f") (str! "d")
    [str! ".. math::", str! "  :name: eq", [], str! "  a = b", str! "  + c", [], [], str! "  d = e", [], []]).output =
      some (str! "\\rstlabel{eq1}\n\\begin{equation}\na = b\n+ c\n\\end{equation}\n\n" ++
        str! "\\rstlabel{eq2}\n\\begin{equation}\nd = e\n\\end{equation}\n\n") := by
  decide +kernel

end Rustla
