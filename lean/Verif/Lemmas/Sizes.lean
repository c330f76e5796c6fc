import Verif.Lemmas.Safe
/-! # Sizes of the texts given to nested parsers -/
namespace Rustla

theorem textSize_nil : textSize [] = 0 := rfl

theorem textSize_cons (l : Str) (ls : List Str) : textSize (l :: ls) = l.length + 1 + textSize ls := by
  simp [textSize]

theorem textSize_append (a b : List Str) : textSize (a ++ b) = textSize a + textSize b := by
  induction a with
  | nil => simp [textSize_nil]
  | cons l ls ih => rw [List.cons_append, textSize_cons, textSize_cons, ih]; omega

theorem textSize_map_le {f : Str → Str} (hf : ∀ l, (f l).length ≤ l.length) (ls : List Str) :
    textSize (ls.map f) ≤ textSize ls := by
  induction ls with
  | nil => exact Nat.le_refl _
  | cons l ls ih => rw [List.map_cons, textSize_cons, textSize_cons]; have := hf l; omega

theorem textSize_drop_add (n m : Nat) (ls : List Str) : textSize (ls.drop (n + m)) ≤ textSize (ls.drop n) := by
  have : ls.drop (n + m) = (ls.drop n).drop m := by rw [List.drop_drop]
  rw [this]
  have h := textSize_append ((ls.drop n).take m) ((ls.drop n).drop m)
  rw [List.take_append_drop] at h
  omega

theorem textSize_drop_le {n m : Nat} (h : n ≤ m) (ls : List Str) : textSize (ls.drop m) ≤ textSize (ls.drop n) := by
  obtain ⟨k, rfl⟩ := Nat.exists_eq_add_of_le h
  exact textSize_drop_add n k ls

theorem drop_eq_cons {α : Type} {ls : List α} {n : Nat} {l : α} (h : ls[n]? = some l) : ls.drop n = l :: ls.drop (n + 1) := by
  obtain ⟨hlt, rfl⟩ := List.getElem?_eq_some_iff.mp h
  exact List.drop_eq_getElem_cons hlt

/-- The text behind an existing line is smaller. -/
theorem textSize_behind {ls : List Str} {n m : Nat} {l : Str} (h : ls[n]? = some l) (hm : n < m) :
    textSize (ls.drop m) + l.length + 1 ≤ textSize ls := by
  have h1 := textSize_drop_le (Nat.zero_le n) ls
  have h2 := textSize_drop_le (show n + 1 ≤ m from hm) ls
  rw [drop_eq_cons h, textSize_cons] at h1
  simp only [List.drop_zero] at h1
  omega

theorem length_le_textSize (ls : List Str) : ls.length ≤ textSize ls := by
  induction ls with
  | nil => exact Nat.le_refl _
  | cons l ls ih => rw [textSize_cons, List.length_cons]; omega

theorem trim_length (s : Str) : (trim s).length ≤ s.length := by
  have h1 : ∀ t : Str, (trimStart t).length ≤ t.length := fun t => by
    unfold trimStart; exact List.Sublist.length_le (List.dropWhile_sublist _)
  unfold trim trimEnd
  have h2 := h1 (trimStart s).reverse
  have h3 := h1 s
  simp only [List.length_reverse] at *
  unfold trimStart at *
  omega

theorem argumentLines_size (b : Nat) (ls : List Str) :
    textSize (argumentLines b ls) + textSize (ls.drop (argumentLines b ls).length) ≤ textSize ls ∧
      (argumentLines b ls).length ≤ ls.length := by
  induction ls with
  | nil => exact ⟨Nat.le_refl _, Nat.le_refl _⟩
  | cons l ls ih =>
    unfold argumentLines
    split
    · simp [textSize_nil]
    · dsimp only
      split
      · simp [textSize_nil]
      · simp only [List.length_cons, List.drop_succ_cons, textSize_cons]
        have := trim_length l
        omega

theorem optionLines_length (b : Nat) (ls : List Str) :
    (optionLines b ls).1.length + (if (optionLines b ls).2 then 1 else 0) ≤ ls.length := by
  induction ls with
  | nil => simp [optionLines]
  | cons l ls ih =>
    unfold optionLines
    split
    · simp
    · split
      · simp
      · split
        · simp
        · simp only [List.length_cons]
          omega

theorem args_bound (src : List Str) (c : LineCursor) (b f : Nat) (e : Bool) (h : c.offset < src.length) :
    (scanDirectiveArguments src c b f e).2.offset ≤ src.length := by
  unfold scanDirectiveArguments LineCursor.relativeOffset LineCursor.incrementBy
  simp only
  split
  · have := (argumentLines_size b (src.drop (c.offset + 1))).2
    simp only [List.length_drop] at this
    simp only
    omega
  · split
    · simp only; omega
    · rename_i line rest hd
      have hl := congrArg List.length hd
      simp only [List.length_drop, List.length_cons] at hl
      split
      · simp only; omega
      · have := (argumentLines_size b rest).2
        simp only [List.length_cons]
        omega

theorem opts_bound (src : List Str) (c : LineCursor) (b : Nat) (h : c.offset ≤ src.length) :
    (scanDirectiveOptions src c b).2.offset ≤ src.length := by
  unfold scanDirectiveOptions LineCursor.relativeOffset LineCursor.incrementBy
  have := optionLines_length b (src.drop c.offset)
  simp only [List.length_drop] at this
  simp only
  split
  · simp only; omega
  · split
    · rename_i h2; rw [if_pos h2] at this; simp only; omega
    · simp only; omega

/-- What an indented block with a known indentation consists of. -/
theorem readIndented_block {src : List Str} {start : Nat} {l : Str} (h : src[start]? = some l) (ub : Bool) (b : Nat)
    (fi : Option Nat) (fo : Bool) :
    ∃ raw tail m, src.drop (start + 1) = raw ++ tail ∧ (∀ x ∈ raw, isBlank x = false → 1 ≤ indentOf x) ∧
      ∃ bf, readIndentedBlock src start ub true (some b) fi fo =
        .ok (.ok (l.drop (fi.getD b) :: raw.map (·.drop m)) m (raw.length + 1) bf) := by
  obtain ⟨hlt, _⟩ := List.getElem?_eq_some_iff.mp h
  have he : src.isEmpty = false := by cases src with
    | nil => simp at hlt
    | cons a as => rfl
  have hd := drop_eq_cons h
  obtain ⟨rest, hrun, _⟩ := readIndentedLoop_spec ub (some b) fo (src.drop (start + 1)) (some l) (some b)
  have hmin := (readIndentedLoop_minimal_some ub (some b) fo (src.drop (start + 1)) (some l) (some b)).not
  cases hm : (readIndentedLoop ub (some b) fo (src.drop (start + 1)) (some l) (some b)).minimal with
  | none => exact absurd hm (hmin.mpr (by simp))
  | some m =>
    refine ⟨(readIndentedLoop ub (some b) fo (src.drop (start + 1)) (some l) (some b)).lines, rest, m, hrun.1, ?_, ?_⟩
    · intro x hx hb
      have := hrun.2.1 x hx
      unfold IndentLineOk at this
      rw [hb] at this
      simp only [Bool.false_eq_true, if_false] at this
      exact this.1
    · unfold readIndentedBlock
      rw [he, hd]
      have hfi : fi.or (some b) = some (fi.getD b) := by cases fi <;> rfl
      simp only [Bool.false_eq_true, if_false, if_neg (show ¬ src.length < start by omega), hfi, hm, if_true, stripBlock,
        List.length_cons, List.length_map]
      exact ⟨_, rfl⟩

/-- The lines of an indented block that starts at the cursor. -/
def BlockAt (E : Env) (s : PS) (first : Nat) (lines : List Str) : Prop :=
  ∃ l raw tail m, E.src[s.cursor.offset]? = some l ∧ E.src.drop (s.cursor.offset + 1) = raw ++ tail ∧
    (∀ x ∈ raw, isBlank x = false → 1 ≤ indentOf x) ∧ lines = l.drop first :: raw.map (·.drop m)

theorem OutOk.indentedBlock {E : Env} {s : PS} (h : s.cursor.offset ≤ E.src.length) (ub : Bool) (b : Nat)
    (fi : Option Nat) (fo : Bool) :
    OutOk (P.indentedBlock E ub (some b) fi fo s) (fun v s' => s' = s ∧ BlockAt E s (fi.getD b) v.1) := by
  unfold P.indentedBlock LineCursor.relativeOffset
  cases hl : E.src[s.cursor.offset]? with
  | none =>
    have hlen : E.src.length ≤ s.cursor.offset := by simpa using hl
    have hlen : E.src.length = s.cursor.offset := by omega
    unfold readIndentedBlock
    split
    · rename_i heq
      split at heq
      · cases heq
      · rw [if_neg (by omega)] at heq
        have hfi : fi.or (some b) = some (fi.getD b) := by cases fi <;> rfl
        simp only [hfi, show E.src.drop s.cursor.offset = [] by simp [hlen]] at heq
        cases heq
        simp [OutOk, crashReasons]
    · rename_i heq
      split at heq
      · cases heq
      · rw [if_neg (by omega)] at heq
        have hfi : fi.or (some b) = some (fi.getD b) := by cases fi <;> rfl
        simp only [hfi, show E.src.drop s.cursor.offset = [] by simp [hlen]] at heq
        cases heq
    · trivial
  | some l =>
    obtain ⟨raw, tail, m, h1, h2, bf, h3⟩ := readIndented_block hl ub b fi fo
    rw [h3]
    exact ⟨rfl, l, raw, tail, m, hl, h1, h2, rfl⟩

/-- A block with an indentation known for its first line is smaller than the source. -/
theorem BlockAt.smaller {E : Env} {s : PS} {f : Nat} {lines : List Str} (h : BlockAt E s f lines) (hf : 1 ≤ f)
    (hl : ∀ l, E.src[s.cursor.offset]? = some l → l ≠ []) : textSize lines < textSize E.src := by
  obtain ⟨l, raw, tail, m, h1, h2, _, rfl⟩ := h
  have hlen : 0 < l.length := List.length_pos_iff.mpr (hl l h1)
  have hs := textSize_behind h1 (Nat.lt_succ_self _)
  rw [h2, textSize_append] at hs
  rw [textSize_cons]
  have := textSize_map_le (f := fun l => l.drop m) (by intro l; simp) raw
  simp only [List.length_drop]
  omega

/-- A block is not larger than the source behind the cursor. -/
theorem BlockAt.le {E : Env} {s : PS} {f : Nat} {lines : List Str} (h : BlockAt E s f lines) :
    textSize lines ≤ textSize (E.src.drop s.cursor.offset) := by
  obtain ⟨l, raw, tail, m, h1, h2, _, rfl⟩ := h
  rw [drop_eq_cons h1, textSize_cons, h2, textSize_cons, textSize_append]
  have := textSize_map_le (f := fun l => l.drop m) (by intro l; simp) raw
  simp only [List.length_drop]
  omega

/-- The lines of the block behind the first non-blank line without indentation are not in the block. -/
theorem BlockAt.unindented {E : Env} {s : PS} {f : Nat} {lines : List Str} (h : BlockAt E s f lines)
    (hi : indentOnSubsequentLines E.src s.cursor.offset = some 0) : textSize lines < textSize (E.src.drop s.cursor.offset) := by
  obtain ⟨l, raw, tail, m, h1, h2, h3, rfl⟩ := h
  unfold indentOnSubsequentLines at hi
  rw [Option.map_eq_some_iff] at hi
  obtain ⟨x, hx, hx0⟩ := hi
  have hb : isBlank x = false := by simpa using List.find?_some hx
  have hmem := List.mem_of_find?_eq_some hx
  rw [h2, List.mem_append] at hmem
  have htail : x ∈ tail := by
    rcases hmem with hm | hm
    · have := h3 x hm hb; omega
    · exact hm
  have hpos : 0 < textSize tail := by
    cases tail with
    | nil => simp at htail
    | cons a as => rw [textSize_cons]; omega
  rw [drop_eq_cons h1, textSize_cons, h2, textSize_cons, textSize_append]
  have := textSize_map_le (f := fun l => l.drop m) (by intro l; simp) raw
  simp only [List.length_drop]
  omega

theorem OutOk.arguments {E : Env} {s : PS} (b f : Nat) (e : Bool) :
    OutOk (P.arguments E b f e s) (fun v s' => s'.doc = s.doc ∧
      (v, s'.cursor) = scanDirectiveArguments E.src s.cursor b f e) := ⟨rfl, rfl⟩

theorem OutOk.options {E : Env} {s : PS} (b : Nat) :
    OutOk (P.options E b s) (fun v s' => s'.doc = s.doc ∧ (v, s'.cursor) = scanDirectiveOptions E.src s.cursor b) :=
  ⟨rfl, rfl⟩

/-- Nested parsers of texts smaller than the given size are safe, and leave at most the given number of states. -/
def NestSafe (nested : NestedParser) (size k : Nat) : Prop :=
  ∀ lines doc base line st level, textSize lines < size → st.live = true → doc.Full →
    match nested lines doc base line st level with
    | .ok (.eof d stack) => d.Full ∧ stack.length ≤ k
    | .ok (.emptyStateStack d stack) => d.Full ∧ stack.length ≤ k
    | .ok (.failure _) => True
    | .error p => p ∈ crashReasons

theorem OutOk.nest {E : Env} {k : Nat} (hE : NestSafe E.nested (textSize E.src) k) {s : PS} (hs : s.doc.Full)
    {lines : List Str} (hl : textSize lines < textSize E.src) (base : Nat) {st : State} (hst : st.live = true) :
    OutOk (P.nest E lines base st s) (fun stack s' => DocOnly s s' ∧ stack.length ≤ k) := by
  have := hE lines s.doc base s.cursor.sumTotal st s.sectionLevel hl hst hs
  unfold P.nest
  split <;> rename_i h <;> rw [h] at this
  · exact this
  · exact ⟨⟨rfl, this.1⟩, this.2⟩
  · exact ⟨⟨rfl, this.1⟩, this.2⟩
  · trivial

end Rustla
