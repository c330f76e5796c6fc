import Verif.Lemmas.Spans
/-! # Membership in the results of a pattern, and patterns with exactly one result -/
namespace Rustla

theorem mem_eps {s : Str} {cs : Caps} {q : Str × Caps} : q ∈ Re.eps.run s cs ↔ q = (s, cs) := by simp [Re.run]

theorem mem_eos {s : Str} {cs : Caps} {q : Str × Caps} : q ∈ Re.eos.run s cs ↔ s = [] ∧ q = ([], cs) := by
  cases s <;> simp [Re.run]

theorem mem_cls {p : Char → Bool} {s : Str} {cs : Caps} {q : Str × Caps} :
    q ∈ (Re.cls p).run s cs ↔ ∃ c t, s = c :: t ∧ p c = true ∧ q = (t, cs) := by
  cases s with
  | nil => simp [Re.run]
  | cons c t =>
    simp only [Re.run]
    split
    · rename_i h
      simp only [List.mem_singleton, List.cons.injEq]
      exact ⟨fun e => ⟨c, t, ⟨rfl, rfl⟩, h, e⟩, by rintro ⟨_, _, ⟨rfl, rfl⟩, _, e⟩; exact e⟩
    · rename_i h
      constructor
      · intro e; cases e
      · rintro ⟨_, _, e, h', _⟩; cases e; exact absurd h' h

theorem mem_chr {a : Char} {s : Str} {cs : Caps} {q : Str × Caps} :
    q ∈ (Re.chr a).run s cs ↔ ∃ t, s = a :: t ∧ q = (t, cs) := by
  unfold Re.chr
  rw [mem_cls]
  constructor
  · rintro ⟨c, t, rfl, h, e⟩
    exact ⟨t, by rw [beq_iff_eq.mp h], e⟩
  · rintro ⟨t, rfl, e⟩
    exact ⟨a, t, rfl, by simp, e⟩

theorem mem_seq {a b : Re} {s : Str} {cs : Caps} {q : Str × Caps} :
    q ∈ (Re.seq a b).run s cs ↔ ∃ r, r ∈ a.run s cs ∧ q ∈ b.run r.1 r.2 := by
  simp only [Re.run, List.mem_flatMap]

theorem mem_alt {a b : Re} {s : Str} {cs : Caps} {q : Str × Caps} :
    q ∈ (Re.alt a b).run s cs ↔ q ∈ a.run s cs ∨ q ∈ b.run s cs := by
  simp only [Re.run, List.mem_append]

theorem mem_cap {g : Grp} {a : Re} {s : Str} {cs : Caps} {q : Str × Caps} :
    q ∈ (Re.cap g a).run s cs ↔ ∃ m r, s = m ++ r.1 ∧ r ∈ a.run s cs ∧ q = (r.1, (g, m) :: r.2) := by
  simp only [Re.run, List.mem_map]
  constructor
  · rintro ⟨r, hr, rfl⟩
    obtain ⟨m, hm⟩ := a.run_suffix s cs r hr
    refine ⟨m, r, hm, hr, ?_⟩
    rw [hm]; simp
  · rintro ⟨m, r, hm, hr, rfl⟩
    refine ⟨r, hr, ?_⟩
    rw [hm]; simp

theorem mem_lit {l s : Str} {cs : Caps} {q : Str × Caps} : q ∈ (Re.lit l).run s cs ↔ s = l ++ q.1 ∧ q.2 = cs := by
  induction l generalizing s with
  | nil =>
    simp only [Re.lit, mem_eps, List.nil_append]
    constructor
    · rintro rfl; exact ⟨rfl, rfl⟩
    · rintro ⟨rfl, rfl⟩; rfl
  | cons c l ih =>
    cases l with
    | nil =>
      simp only [Re.lit, mem_chr, List.cons_append, List.nil_append]
      constructor
      · rintro ⟨t, rfl, rfl⟩; exact ⟨rfl, rfl⟩
      · rintro ⟨rfl, rfl⟩; exact ⟨_, rfl, rfl⟩
    | cons d l =>
      simp only [Re.lit, mem_seq, mem_chr]
      constructor
      · rintro ⟨r, ⟨t, rfl, rfl⟩, h⟩
        obtain ⟨h1, h2⟩ := ih.mp h
        exact ⟨congrArg (c :: ·) h1, h2⟩
      · rintro ⟨rfl, h2⟩
        exact ⟨_, ⟨_, rfl, rfl⟩, ih.mpr ⟨rfl, h2⟩⟩

theorem starRun_nil (g : Bool) (f : Str → Caps → List (Str × Caps)) (k : Nat) (cs : Caps) : starRun g f k [] cs = [([], cs)] := by
  cases k with
  | zero => rfl
  | succ k =>
    have : (f [] cs).flatMap (fun r : Str × Caps => if r.1.length < ([] : Str).length then starRun g f k r.1 r.2 else []) = [] := by
      rw [List.flatMap_eq_nil_iff]; intro r _; simp
    simp only [starRun, this]
    cases g <;> rfl

/-- The number of rounds does not matter if it is large enough. -/
theorem starRun_fuel (g : Bool) (f : Str → Caps → List (Str × Caps)) :
    ∀ (n m : Nat) (s : Str) (cs : Caps), s.length ≤ n → s.length ≤ m → starRun g f n s cs = starRun g f m s cs := by
  intro n
  induction n with
  | zero =>
    intro m s cs h1 _
    obtain rfl := List.length_eq_zero_iff.mp (Nat.le_zero.mp h1)
    rw [starRun_nil, starRun_nil]
  | succ n ih =>
    intro m s cs h1 h2
    cases m with
    | zero =>
      obtain rfl := List.length_eq_zero_iff.mp (Nat.le_zero.mp h2)
      rw [starRun_nil, starRun_nil]
    | succ m =>
      simp only [starRun]
      have : (fun r : Str × Caps => if r.1.length < s.length then starRun g f n r.1 r.2 else []) =
          fun r : Str × Caps => if r.1.length < s.length then starRun g f m r.1 r.2 else [] := by
        funext r
        split
        · exact ih m r.1 r.2 (by omega) (by omega)
        · rfl
      rw [this]

theorem mem_star {g : Bool} {a : Re} {s : Str} {cs : Caps} {q : Str × Caps} :
    q ∈ (Re.star g a).run s cs ↔ q = (s, cs) ∨ ∃ r, r ∈ a.run s cs ∧ r.1.length < s.length ∧ q ∈ (Re.star g a).run r.1 r.2 := by
  have hfuel : ∀ {r : Str × Caps} {n : Nat}, r.1.length ≤ n → starRun g a.run n r.1 r.2 = (Re.star g a).run r.1 r.2 := by
    intro r n h
    exact starRun_fuel g a.run n r.1.length r.1 r.2 h (Nat.le_refl _)
  cases hs : s.length with
  | zero =>
    obtain rfl := List.length_eq_zero_iff.mp hs
    simp [Re.run, starRun_nil]
  | succ n =>
    have e : (Re.star g a).run s cs = starRun g a.run (n + 1) s cs := by rw [← hs]; rfl
    rw [e]
    have hm : ∀ q : Str × Caps, (q ∈ (a.run s cs).flatMap fun r => if r.1.length < s.length then starRun g a.run n r.1 r.2 else []) ↔
        ∃ r, r ∈ a.run s cs ∧ r.1.length < n + 1 ∧ q ∈ (Re.star g a).run r.1 r.2 := by
      intro q
      rw [List.mem_flatMap]
      constructor
      · rintro ⟨r, h1, h2⟩
        split at h2
        · rename_i hlt
          rw [hfuel (by omega)] at h2
          exact ⟨r, h1, by omega, h2⟩
        · cases h2
      · rintro ⟨r, h1, h2, h3⟩
        refine ⟨r, h1, ?_⟩
        rw [if_pos (by omega), hfuel (by omega)]
        exact h3
    rw [starRun]
    cases g with
    | true => simp only [if_true, List.mem_append, List.mem_singleton, hm, or_comm]
    | false => simp only [Bool.false_eq_true, if_false, List.mem_cons, hm]

theorem mem_star_cls {g : Bool} {p : Char → Bool} {s : Str} {cs : Caps} {q : Str × Caps} :
    q ∈ (Re.star g (.cls p)).run s cs ↔ q.2 = cs ∧ ∃ m, s = m ++ q.1 ∧ ∀ c ∈ m, p c = true := by
  induction s with
  | nil =>
    rw [mem_star]
    constructor
    · rintro (rfl | ⟨r, _, h, _⟩)
      · exact ⟨rfl, [], rfl, by simp⟩
      · simp at h
    · rintro ⟨h1, m, h2, _⟩
      exact .inl (Prod.ext (List.append_eq_nil_iff.mp h2.symm).2 h1)
  | cons c s ih =>
    rw [mem_star]
    constructor
    · rintro (rfl | ⟨r, hr, _, hq⟩)
      · exact ⟨rfl, [], rfl, by simp⟩
      · obtain ⟨c', t, e, hp, rfl⟩ := mem_cls.mp hr
        cases e
        obtain ⟨h1, m, h2, h3⟩ := ih.mp hq
        exact ⟨h1, c :: m, by rw [h2]; rfl, by simpa using ⟨hp, h3⟩⟩
    · rintro ⟨h1, m, h2, h3⟩
      cases m with
      | nil => exact .inl (Prod.ext h2.symm h1)
      | cons d m =>
        obtain ⟨rfl, h4⟩ : c = d ∧ s = m ++ q.1 := by simpa using h2
        exact .inr ⟨(s, cs), mem_cls.mpr ⟨c, s, rfl, h3 c (by simp), rfl⟩, by simp,
          ih.mpr ⟨h1, m, h4, fun x hx => h3 x (by simp [hx])⟩⟩

theorem mem_plus_cls {g : Bool} {p : Char → Bool} {s : Str} {cs : Caps} {q : Str × Caps} :
    q ∈ (Re.plus g (.cls p)).run s cs ↔ q.2 = cs ∧ ∃ m, m ≠ [] ∧ s = m ++ q.1 ∧ ∀ c ∈ m, p c = true := by
  unfold Re.plus
  rw [mem_seq]
  constructor
  · rintro ⟨r, hr, hq⟩
    obtain ⟨c, t, rfl, hp, rfl⟩ := mem_cls.mp hr
    obtain ⟨h1, m, h2, h3⟩ := mem_star_cls.mp hq
    exact ⟨h1, c :: m, by simp, by simp only at h2; rw [h2]; rfl, by simpa using ⟨hp, h3⟩⟩
  · rintro ⟨h1, m, h0, h2, h3⟩
    cases m with
    | nil => exact absurd rfl h0
    | cons c m =>
      exact ⟨(m ++ q.1, cs), mem_cls.mpr ⟨c, m ++ q.1, by rw [h2]; rfl, h3 c (by simp), rfl⟩,
        mem_star_cls.mpr ⟨h1, m, rfl, fun x hx => h3 x (by simp [hx])⟩⟩

theorem mem_plus_chr {g : Bool} {a : Char} {s : Str} {cs : Caps} {q : Str × Caps} :
    q ∈ (Re.plus g (.chr a)).run s cs ↔ q.2 = cs ∧ ∃ n, s = List.replicate (n + 1) a ++ q.1 := by
  unfold Re.chr
  rw [mem_plus_cls]
  refine and_congr_right fun _ => ?_
  constructor
  · rintro ⟨m, h0, h1, h2⟩
    refine ⟨m.length - 1, ?_⟩
    have : m = List.replicate m.length a := List.eq_replicate_iff.mpr ⟨rfl, fun c hc => beq_iff_eq.mp (h2 c hc)⟩
    have hl : m.length - 1 + 1 = m.length := by
      have := List.length_pos_of_ne_nil h0; omega
    rw [hl, ← this]; exact h1
  · rintro ⟨n, h⟩
    exact ⟨List.replicate (n + 1) a, by simp, h, fun c hc => by rw [List.eq_of_mem_replicate hc]; simp⟩

theorem mem_opt {a : Re} {s : Str} {cs : Caps} {q : Str × Caps} :
    q ∈ (Re.opt a).run s cs ↔ q ∈ a.run s cs ∨ q = (s, cs) := by
  unfold Re.opt; rw [mem_alt, mem_eps]

/-- A pattern with exactly one result. -/
theorem captures_of_unique {r : Re} {w s : Str} {cs : Caps} (h : (s, cs) ∈ r.run (w ++ s) [])
    (hu : ∀ q ∈ r.run (w ++ s) [], q = (s, cs)) : r.captures (w ++ s) = some ⟨w, s, cs⟩ := by
  unfold Re.captures
  cases hr : r.run (w ++ s) [] with
  | nil => rw [hr] at h; cases h
  | cons q qs =>
    obtain rfl := hu q (by rw [hr]; simp)
    simp

end Rustla
