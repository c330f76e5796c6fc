import Verif.Model.Regex
/-! # Facts about regular expression matching -/
namespace Rustla

theorem starRun_suffix (g : Bool) (f : Str → Caps → List (Str × Caps))
    (hf : ∀ s cs q, q ∈ f s cs → ∃ m, s = m ++ q.1) :
    ∀ n s cs q, q ∈ starRun g f n s cs → ∃ m, s = m ++ q.1 := by
  intro n
  induction n with
  | zero => intro s cs q h; simp [starRun] at h; subst h; exact ⟨[], rfl⟩
  | succ n ih =>
    intro s cs q h
    have : q = (s, cs) ∨ q ∈ (f s cs).flatMap fun r => if r.1.length < s.length then starRun g f n r.1 r.2 else [] := by
      cases g
      · simpa [starRun] using h
      · simp only [starRun, if_true, List.mem_append, List.mem_singleton] at h
        rcases h with h | h
        · exact .inr h
        · exact .inl h
    rcases this with rfl | h
    · exact ⟨[], rfl⟩
    · obtain ⟨r, hr, hq⟩ := List.mem_flatMap.mp h
      split at hq
      · obtain ⟨m1, e1⟩ := hf _ _ _ hr
        obtain ⟨m2, e2⟩ := ih _ _ _ hq
        exact ⟨m1 ++ m2, by rw [e1, e2]; simp⟩
      · simp at hq

theorem Re.run_suffix (r : Re) : ∀ s cs q, q ∈ r.run s cs → ∃ m, s = m ++ q.1 := by
  induction r with
  | eps => intro s cs q h; simp [Re.run] at h; subst h; exact ⟨[], rfl⟩
  | cls p =>
    intro s cs q h
    cases s with
    | nil => simp [Re.run] at h
    | cons c s =>
      simp only [Re.run] at h
      split at h
      · simp at h; subst h; exact ⟨[c], rfl⟩
      · simp at h
  | seq a b iha ihb =>
    intro s cs q h
    obtain ⟨r, hr, hq⟩ := List.mem_flatMap.mp h
    obtain ⟨m1, e1⟩ := iha _ _ _ hr
    obtain ⟨m2, e2⟩ := ihb _ _ _ hq
    exact ⟨m1 ++ m2, by rw [e1, e2]; simp⟩
  | alt a b iha ihb =>
    intro s cs q h
    rcases List.mem_append.mp h with h | h
    · exact iha _ _ _ h
    · exact ihb _ _ _ h
  | star g r ih => intro s cs q h; exact starRun_suffix g _ ih _ _ _ _ h
  | cap g r ih =>
    intro s cs q h
    simp only [Re.run] at h
    obtain ⟨q', hq', rfl⟩ := List.mem_map.mp h
    exact ih s cs q' hq'
  | eos =>
    intro s cs q h
    simp only [Re.run] at h
    split at h
    · simp at h; subst h; exact ⟨[], rfl⟩
    · simp at h

/-- The text matched and the rest make up the text searched. -/
theorem Re.captures_append {r : Re} {s : Str} {m : Match} (h : r.captures s = some m) : m.whole ++ m.rest = s := by
  unfold Re.captures at h
  split at h
  · cases h
  · rename_i q _ hq
    cases h
    obtain ⟨p, hp⟩ := r.run_suffix s [] q (by rw [hq]; simp)
    simp only
    have : s.length - q.1.length = p.length := by rw [hp]; simp
    rw [this]; conv => rhs; rw [hp]
    rw [hp]; simp

/-- Smallest number of characters a pattern consumes. -/
def Re.minLen : Re → Nat
  | .eps => 0
  | .cls _ => 1
  | .seq a b => a.minLen + b.minLen
  | .alt a b => min a.minLen b.minLen
  | .star _ _ => 0
  | .cap _ r => r.minLen
  | .eos => 0

theorem Re.run_minLen (r : Re) : ∀ s cs q, q ∈ r.run s cs → q.1.length + r.minLen ≤ s.length := by
  induction r with
  | eps => intro s cs q h; simp [Re.run] at h; subst h; simp [minLen]
  | cls p =>
    intro s cs q h
    cases s with
    | nil => simp [Re.run] at h
    | cons c s =>
      simp only [Re.run] at h
      split at h
      · simp at h; subst h; simp [minLen]
      · simp at h
  | seq a b iha ihb =>
    intro s cs q h
    obtain ⟨r, hr, hq⟩ := List.mem_flatMap.mp h
    have := iha _ _ _ hr
    have := ihb _ _ _ hq
    simp only [minLen]; omega
  | alt a b iha ihb =>
    intro s cs q h
    simp only [minLen]
    rcases List.mem_append.mp h with h | h
    · have := iha _ _ _ h; omega
    · have := ihb _ _ _ h; omega
  | star g r ih =>
    intro s cs q h
    obtain ⟨m, hm⟩ := starRun_suffix g _ (r.run_suffix) _ _ _ _ h
    rw [hm]; simp [minLen]
  | cap g r ih =>
    intro s cs q h
    simp only [Re.run] at h
    obtain ⟨q', hq', rfl⟩ := List.mem_map.mp h
    exact ih s cs q' hq'
  | eos =>
    intro s cs q h
    simp only [Re.run] at h
    split at h
    · simp at h; subst h; simp [minLen]
    · simp at h

theorem Re.captures_minLen {r : Re} {s : Str} {m : Match} (h : r.captures s = some m) :
    r.minLen ≤ m.whole.length := by
  have h' := h
  unfold Re.captures at h
  split at h
  · cases h
  · rename_i q _ hq
    cases h
    have := r.run_minLen s [] q (by rw [hq]; simp)
    simp; omega

theorem Re.isMatch_iff (r : Re) (s : Str) : r.isMatch s = true ↔ ∃ m, r.captures s = some m := by
  unfold Re.isMatch Re.captures
  cases h : r.run s [] <;> simp

theorem Re.captures_none_iff (r : Re) (s : Str) : r.captures s = none ↔ r.run s [] = [] := by
  unfold Re.captures; cases h : r.run s [] <;> simp

/-! ## Computing with classes -/

/-- Greedy repetition of a class: the whole run of class members first, then shorter ones. -/
theorem starRun_cls_greedy (p : Char → Bool) : ∀ (n : Nat) (s : Str) (cs : Caps), s.length ≤ n →
    starRun true (Re.cls p).run n s cs =
      ((List.range ((s.takeWhile p).length + 1)).reverse.map fun k => (s.drop k, cs)) := by
  intro n
  induction n with
  | zero =>
    intro s cs h
    have : s = [] := by cases s with | nil => rfl | cons => simp at h
    subst this; simp [starRun]
  | succ n ih =>
    intro s cs h
    cases s with
    | nil => simp [starRun, Re.run]
    | cons c s =>
      by_cases hp : p c
      · simp only [starRun, Re.run, hp, if_true, List.flatMap_cons, List.flatMap_nil, List.length_cons,
          Nat.lt_succ_self, List.append_nil, List.takeWhile_cons]
        rw [ih s cs (by simpa using h)]
        rw [List.range_succ_eq_map (n := (List.takeWhile p s).length + 1)]
        simp [List.map_reverse, Function.comp_def]
      · simp [starRun, Re.run, hp]

theorem run_star_cls (p : Char → Bool) (s : Str) (cs : Caps) :
    (Re.star true (.cls p)).run s cs =
      ((List.range ((s.takeWhile p).length + 1)).reverse.map fun k => (s.drop k, cs)) :=
  starRun_cls_greedy p _ s cs (Nat.le_refl _)

/-- If the text does not start with a class member, a repetition of the class matches nothing only. -/
theorem run_star_cls_none {p : Char → Bool} {s : Str} (h : ∀ c, s.head? = some c → p c = false) (cs : Caps) :
    (Re.star true (.cls p)).run s cs = [(s, cs)] := by
  rw [run_star_cls]
  cases s with
  | nil => simp
  | cons c s => simp [h c rfl]

end Rustla
