import Verif.Model.Basic
/-! # List and string helper lemmas -/
namespace Rustla

theorem dropWhile_eq_nil {α} (p : α → Bool) (l : List α) : l.dropWhile p = [] ↔ ∀ x ∈ l, p x = true := by
  induction l with
  | nil => simp
  | cons a l ih => by_cases h : p a <;> simp [h, ih]

theorem mem_takeWhile {α} (p : α → Bool) (l : List α) (x : α) (h : x ∈ l.takeWhile p) : p x = true := by
  induction l with
  | nil => simp at h
  | cons a l ih =>
    by_cases ha : p a
    · simp only [List.takeWhile_cons, ha, if_true, List.mem_cons] at h
      rcases h with rfl | h
      · exact ha
      · exact ih h
    · simp [ha] at h

theorem trim_eq_nil (l : Str) : trim l = [] ↔ ∀ c ∈ l, isWs c = true := by
  unfold trim trimEnd
  rw [List.reverse_eq_nil_iff, dropWhile_eq_nil]
  simp only [List.mem_reverse]
  constructor
  · intro h
    unfold trimStart at h
    cases hd : l.dropWhile isWs with
    | nil => exact (dropWhile_eq_nil _ _).mp hd
    | cons a as =>
      have := List.head?_dropWhile_not isWs l
      rw [hd] at this h
      simp [h a (by simp)] at this
  · intro h c hc
    exact h c ((List.dropWhile_sublist isWs).subset hc)

theorem isBlank_iff (l : Str) : isBlank l = true ↔ ∀ c ∈ l, isWs c = true := by
  rw [← trim_eq_nil]; simp [isBlank, List.isEmpty_iff]

theorem isBlank_false_iff (l : Str) : isBlank l = false ↔ ∃ c ∈ l, isWs c = false := by
  rw [← Bool.not_eq_true, isBlank_iff]; simp

theorem trim_of_blank {l : Str} (h : isBlank l = true) : trim l = [] := by
  simpa [isBlank, List.isEmpty_iff] using h

theorem indentOf_le (l : Str) : indentOf l ≤ l.length := (List.takeWhile_sublist isWs).length_le

end Rustla
