import Verif.Spec.Values
import Verif.Lemmas.Boxes
import Verif.Lemmas.Widths
/-!
# C79: the values of options are read exactly
-/
namespace Rustla
open Spec

/-! ## Trimming -/

/-- Trimming removes the white space around a text. -/
theorem trim_around {s t : Str} (h1 : ∀ c, t.head? = some c → isWs c = false) (h2 : ∀ c, t.getLast? = some c → isWs c = false) :
    trim s = t ↔ Around s t := by
  constructor
  · intro e
    obtain ⟨r, hr, hw⟩ := trimEnd_prefix (trimStart s)
    refine ⟨s.takeWhile isWs, r, fun c hc => mem_takeWhile _ _ _ hc, hw, ?_⟩
    rw [List.append_assoc, ← e]
    show s = s.takeWhile isWs ++ (trimEnd (trimStart s) ++ r)
    rw [← hr]
    exact (List.takeWhile_append_dropWhile (p := isWs) (l := s)).symm
  · rintro ⟨l, r, hl, hr, rfl⟩
    have e1 : trimStart (l ++ t ++ r) = trimStart (t ++ r) := by
      unfold trimStart
      rw [List.append_assoc, List.dropWhile_append_of_pos hl]
    have e2 : trim (l ++ t ++ r) = trim (t ++ r) := by unfold trim; rw [e1]
    rw [e2]
    cases ht : t with
    | nil => exact (trim_eq_nil _).mpr (by simpa using hr)
    | cons c u =>
      rw [← ht]
      have hc : t.head? = some c := by rw [ht]; rfl
      obtain ⟨d, hd⟩ : ∃ d, t.getLast? = some d := by
        cases h : t.getLast? with
        | none => rw [List.getLast?_eq_none_iff] at h; rw [h] at ht; cases ht
        | some d => exact ⟨d, rfl⟩
      exact trim_ends hc (h1 c hc) hd (h2 d hd) hr

/-! ## Languages of patterns -/

theorem star_accepts (p : Char → Bool) (s : Str) (cs : Caps) (q : Str × Caps) :
    q ∈ (Re.star true (.cls p)).run s cs ↔ ∃ a, (∀ c ∈ a, p c = true) ∧ s = a ++ q.1 ∧ q.2 = cs := by
  rw [run_star_cls]
  simp only [List.mem_map, List.mem_reverse, List.mem_range]
  constructor
  · rintro ⟨k, hk, rfl⟩
    refine ⟨s.take k, ?_, (List.take_append_drop k s).symm, rfl⟩
    intro c hc
    have : s.take k <+: s.takeWhile p :=
      List.prefix_of_prefix_length_le (List.take_prefix k s) (List.takeWhile_prefix p)
        (by rw [List.length_take]; omega)
    exact mem_takeWhile _ _ _ (this.subset hc)
  · rintro ⟨a, ha, e, e2⟩
    refine ⟨a.length, ?_, ?_⟩
    · have : a.length ≤ (s.takeWhile p).length := by
        rw [e, List.takeWhile_append_of_pos ha]; simp
      omega
    · rw [e]; simp [← e2]

theorem plus_accepts (p : Char → Bool) (s : Str) (cs : Caps) (q : Str × Caps) :
    q ∈ (Re.plus true (.cls p)).run s cs ↔ ∃ a, a ≠ [] ∧ (∀ c ∈ a, p c = true) ∧ s = a ++ q.1 ∧ q.2 = cs := by
  unfold Re.plus
  simp only [Re.run, List.mem_flatMap]
  constructor
  · rintro ⟨r, hr, hq⟩
    cases s with
    | nil => simp [Re.run] at hr
    | cons c s =>
      by_cases hc : p c = true
      · simp only [Re.run, hc, if_true, List.mem_singleton] at hr
        subst hr
        obtain ⟨a, ha, e, e2⟩ := (star_accepts p _ _ _).mp hq
        exact ⟨c :: a, by simp, by simpa [hc] using ha, by simpa using e, e2⟩
      · simp [Re.run, hc] at hr
  · rintro ⟨a, hne, ha, e, e2⟩
    obtain ⟨c, a, rfl⟩ := List.exists_cons_of_ne_nil hne
    subst e
    refine ⟨(a ++ q.1, cs), by simp [Re.run, ha c (by simp)], (star_accepts p _ _ _).mpr ⟨a, fun x hx => ha x (by simp [hx]), rfl, e2⟩⟩

/-- The pattern of a number with a decimal point. -/
abbrev reAmount : Re :=
  .alt (.seq (Re.plus true (.cls clsDigit)) (Re.opt (.seq (.chr '.') (.star true (.cls clsDigit)))))
    (.seq (.chr '.') (Re.plus true (.cls clsDigit)))

theorem point_accepts {s : Str} {cs : Caps} {q : Str × Caps} : q ∈ (Re.chr '.').run s cs ↔ s = '.' :: q.1 ∧ q.2 = cs := by
  cases s with
  | nil => simp [Re.chr, Re.run]
  | cons c s =>
    simp only [Re.chr, Re.run]
    by_cases h : (c == '.') = true
    · simp only [h, if_true, List.mem_singleton]
      simp only [beq_iff_eq] at h
      subst h
      obtain ⟨a, b⟩ := q
      simp [eq_comm]
    · simp only [h]
      simp only [beq_iff_eq] at h
      simp [h]

theorem amount_accepts {s : Str} {cs : Caps} {q : Str × Caps} :
    q ∈ reAmount.run s cs ↔ ∃ a : Amount, a.Ok ∧ s = a.text ++ q.1 ∧ q.2 = cs := by
  have hd : ∀ {a : Str}, (∀ c ∈ a, clsDigit c = true) ↔ (∀ c ∈ a, c.isDigit = true) := fun {a} =>
    ⟨fun h c hc => isDigit_cls (h c hc), fun h c hc => cls_isDigit (h c hc)⟩
  unfold reAmount
  rw [Re.run, List.mem_append]
  constructor
  · rintro (h | h)
    · rw [Re.run, List.mem_flatMap] at h
      obtain ⟨r, hr, hq⟩ := h
      obtain ⟨a, hne, ha, e, e2⟩ := (plus_accepts _ _ _ _).mp hr
      unfold Re.opt at hq
      rw [Re.run, List.mem_append] at hq
      rcases hq with hq | hq
      · rw [Re.run, List.mem_flatMap] at hq
        obtain ⟨t, ht, hq⟩ := hq
        obtain ⟨e3, e4⟩ := point_accepts.mp ht
        obtain ⟨b, hb, e5, e6⟩ := (star_accepts _ _ _ _).mp hq
        refine ⟨⟨a, true, b⟩, ⟨hd.mp ha, hd.mp hb, by simp, .inl hne⟩, ?_, by rw [e6, e4, e2]⟩
        rw [e, e3, e5]; simp [Amount.text]
      · simp only [Re.run, List.mem_singleton] at hq
        subst hq
        exact ⟨⟨a, false, []⟩, ⟨hd.mp ha, by simp, by simp, .inl hne⟩, by simp [Amount.text, e], e2⟩
    · rw [Re.run, List.mem_flatMap] at h
      obtain ⟨r, hr, hq⟩ := h
      obtain ⟨e3, e4⟩ := point_accepts.mp hr
      obtain ⟨b, hne, hb, e5, e6⟩ := (plus_accepts _ _ _ _).mp hq
      refine ⟨⟨[], true, b⟩, ⟨by simp, hd.mp hb, by simp, .inr hne⟩, ?_, by rw [e6, e4]⟩
      rw [e3, e5]; simp [Amount.text]
  · rintro ⟨⟨a, pt, b⟩, ⟨h1, h2, h3, h4⟩, e, e2⟩
    cases a with
    | nil =>
      right
      cases pt with
      | false => simp at h3; subst h3; simp at h4
      | true =>
        rw [Re.run, List.mem_flatMap]
        simp at h4
        exact ⟨(b ++ q.1, cs), point_accepts.mpr ⟨by simpa [Amount.text] using e, rfl⟩,
          (plus_accepts _ _ _ _).mpr ⟨b, h4, hd.mpr h2, rfl, e2⟩⟩
    | cons c a =>
      left
      rw [Re.run, List.mem_flatMap]
      cases pt with
      | false =>
        refine ⟨q, (plus_accepts _ _ _ _).mpr ⟨c :: a, by simp, hd.mpr h1, by simpa [Amount.text] using e, e2⟩, ?_⟩
        unfold Re.opt
        rw [Re.run, List.mem_append]
        right; simp [Re.run]
      | true =>
        refine ⟨('.' :: b ++ q.1, cs), (plus_accepts _ _ _ _).mpr ⟨c :: a, by simp, hd.mpr h1, by simpa [Amount.text] using e, rfl⟩, ?_⟩
        unfold Re.opt
        rw [Re.run, List.mem_append]
        left
        rw [Re.run, List.mem_flatMap]
        exact ⟨(b ++ q.1, cs), point_accepts.mpr ⟨by simp, rfl⟩, (star_accepts _ _ _ _).mpr ⟨b, hd.mpr h2, rfl, e2⟩⟩

/-- The value of a number is computed. -/
theorem parseF64_amount {a : Amount} (h : a.Ok) : parseF64 a.text = a.value := by
  have hpre : ∀ y ∈ a.whole, (y != '.') = true := by
    intro y hy
    simpa using (clsDigit_plain (cls_isDigit (h.whole y hy))).2.1
  unfold parseF64 Amount.value Amount.text
  cases hp : a.point with
  | false =>
    obtain ⟨h1, h2⟩ := takeWhile_pointless hpre
    have := h.pointless hp
    simp [h1, h2, this, digitsVal, readDigits]
  | true =>
    obtain ⟨h1, h2⟩ := takeWhile_point (b := a.fraction) hpre (x := '.') (by decide)
    simp [h1, h2, digitsVal, readDigits]

theorem amount_chars {a : Amount} (h : a.Ok) : ∀ c ∈ a.text, c.isDigit = true ∨ c = '.' := by
  intro c hc
  rcases List.mem_append.mp hc with hc | hc
  · exact .inl (h.whole c hc)
  · split at hc
    · rcases List.mem_cons.mp hc with rfl | hc
      · exact .inr rfl
      · exact .inl (h.fraction c hc)
    · cases hc

theorem amount_ne {a : Amount} (h : a.Ok) : a.text ≠ [] := by
  intro e
  unfold Amount.text at e
  rw [List.append_eq_nil_iff] at e
  rcases h.digit with h1 | h1
  · exact h1 e.1
  · cases hp : a.point with
    | true => rw [hp] at e; simp at e
    | false => exact h1 (h.pointless hp)

theorem amount_not_ws {a : Amount} (h : a.Ok) : ∀ c ∈ a.text, isWs c = false := by
  intro c hc
  rcases amount_chars h c hc with hc | rfl
  · exact (clsDigit_plain (cls_isDigit hc)).1
  · decide

/-- Two texts whose first parts have only characters of a class, and whose other parts start with another character. -/
theorem span_unique {p : Char → Bool} {a b x y : Str} (ha : ∀ c ∈ a, p c = true) (hb : ∀ c ∈ b, p c = true)
    (hx : ∀ c, x.head? = some c → p c = false) (hy : ∀ c, y.head? = some c → p c = false) (e : a ++ x = b ++ y) : a = b ∧ x = y := by
  have h : ∀ {a x : Str}, (∀ c ∈ a, p c = true) → (∀ c, x.head? = some c → p c = false) → (a ++ x).takeWhile p = a := by
    intro a x ha hx
    rw [List.takeWhile_append_of_pos ha]
    cases x with
    | nil => simp
    | cons c x => simp [hx c rfl]
  have h1 : a = b := by rw [← h ha hx, ← h hb hy, e]
  subst h1
  exact ⟨rfl, List.append_cancel_left e⟩

theorem lit_accepts : ∀ {w s : Str} {cs : Caps} {q : Str × Caps}, q ∈ (Re.lit w).run s cs ↔ s = w ++ q.1 ∧ q.2 = cs := by
  have chr : ∀ {c : Char} {s : Str} {cs : Caps} {q : Str × Caps}, q ∈ (Re.chr c).run s cs ↔ s = c :: q.1 ∧ q.2 = cs := by
    intro c s cs q
    cases s with
    | nil => simp [Re.chr, Re.run]
    | cons d s =>
      simp only [Re.chr, Re.run]
      by_cases h : (d == c) = true
      · simp only [h, if_true, List.mem_singleton]
        simp only [beq_iff_eq] at h
        subst h
        obtain ⟨a, b⟩ := q
        simp [eq_comm]
      · simp only [h]
        simp only [beq_iff_eq] at h
        simp [h]
  intro w
  induction w with
  | nil =>
    intro s cs q
    obtain ⟨a, b⟩ := q
    simp [Re.lit, Re.run, eq_comm]
  | cons c w ih =>
    intro s cs q
    cases w with
    | nil => simpa [Re.lit] using chr
    | cons d w =>
      rw [Re.lit, Re.run, List.mem_flatMap]
      · constructor
        · rintro ⟨r, hr, hq⟩
          obtain ⟨e1, e2⟩ := chr.mp hr
          obtain ⟨e3, e4⟩ := ih.mp hq
          exact ⟨by rw [e1, e3]; rfl, by rw [e4, e2]⟩
        · rintro ⟨e1, e2⟩
          exact ⟨(d :: w ++ q.1, cs), chr.mpr ⟨by simpa using e1, rfl⟩, ih.mpr ⟨rfl, e2⟩⟩
      · simp

theorem lits_accept {s : Str} {cs : Caps} {q : Str × Caps} : ∀ {ws : List Str}, ws ≠ [] →
    (q ∈ (Re.alts (ws.map Re.lit)).run s cs ↔ ∃ w ∈ ws, s = w ++ q.1 ∧ q.2 = cs) := by
  intro ws
  induction ws with
  | nil => intro h; exact absurd rfl h
  | cons w ws ih =>
    intro _
    cases ws with
    | nil => simp [Re.alts, lit_accepts]
    | cons v ws =>
      rw [List.map_cons, List.map_cons, Re.alts, Re.run, List.mem_append, ← List.map_cons, ih (by simp), lit_accepts]
      · simp
      · simp

theorem eos_accepts {s : Str} {cs : Caps} {q : Str × Caps} : q ∈ Re.eos.run s cs ↔ s = [] ∧ q = ([], cs) := by
  cases s <;> simp [Re.run]

/-! ## Lengths and percentages -/

theorem length_accepts {s : Str} {q : Str × Caps} :
    q ∈ reValidLength.run s [] ↔ ∃ a : Amount, ∃ u ∈ units.map (·.1), a.Ok ∧ s = a.text ++ u ∧ q = ([], [(.unit, u), (.number, a.text)]) := by
  have e : reValidLength = .seq (.cap .number reAmount) (.seq (.cap .unit (Re.alts ((units.map (·.1)).map Re.lit))) .eos) := rfl
  rw [e, Re.run, List.mem_flatMap]
  constructor
  · rintro ⟨r, hr, hq⟩
    rw [Re.run, List.mem_map] at hr
    obtain ⟨r', hr', rfl⟩ := hr
    obtain ⟨a, ha, e1, e2⟩ := amount_accepts.mp hr'
    rw [Re.run, List.mem_flatMap] at hq
    obtain ⟨t, ht, hq⟩ := hq
    rw [Re.run, List.mem_map] at ht
    obtain ⟨t', ht', rfl⟩ := ht
    obtain ⟨u, hu, e3, e4⟩ := (lits_accept (by decide)).mp ht'
    obtain ⟨e5, e6⟩ := eos_accepts.mp hq
    dsimp only at e3 e4 e5 e6
    rw [e5, List.append_nil] at e3
    refine ⟨a, u, hu, ha, by rw [e1, e3], ?_⟩
    rw [e6, e4, e2, e5, e1, e3]
    simp
  · rintro ⟨a, u, hu, ha, rfl, rfl⟩
    refine ⟨(u, [(.number, a.text)]), ?_, ?_⟩
    · rw [Re.run, List.mem_map]
      exact ⟨(u, []), amount_accepts.mpr ⟨a, ha, rfl, rfl⟩, by simp⟩
    · rw [Re.run, List.mem_flatMap]
      refine ⟨([], [(.unit, u), (.number, a.text)]), ?_, eos_accepts.mpr ⟨rfl, rfl⟩⟩
      rw [Re.run, List.mem_map]
      exact ⟨([], [(.number, a.text)]), (lits_accept (by decide)).mpr ⟨u, hu, by simp, rfl⟩, by simp⟩

theorem percentage_accepts {s : Str} {q : Str × Caps} :
    q ∈ reValidPercentage.run s [] ↔ ∃ (a : Amount) (w : Str), a.Ok ∧ (∀ c ∈ w, isWs c = true) ∧ s = a.text ++ w ++ ['%'] ∧
      q = ([], [(.unit, ['%']), (.number, a.text)]) := by
  have e : reValidPercentage = .seq (.cap .number reAmount) (.seq (.star true (.cls isWs)) (.seq (.cap .unit (Re.lit ['%'])) .eos)) := rfl
  rw [e, Re.run, List.mem_flatMap]
  constructor
  · rintro ⟨r, hr, hq⟩
    rw [Re.run, List.mem_map] at hr
    obtain ⟨r', hr', rfl⟩ := hr
    obtain ⟨a, ha, e1, e2⟩ := amount_accepts.mp hr'
    rw [Re.run, List.mem_flatMap] at hq
    obtain ⟨v, hv, hq⟩ := hq
    obtain ⟨w, hw, e7, e8⟩ := (star_accepts _ _ _ _).mp hv
    rw [Re.run, List.mem_flatMap] at hq
    obtain ⟨t, ht, hq⟩ := hq
    rw [Re.run, List.mem_map] at ht
    obtain ⟨t', ht', rfl⟩ := ht
    obtain ⟨e3, e4⟩ := lit_accepts.mp ht'
    obtain ⟨e5, e6⟩ := eos_accepts.mp hq
    dsimp only at e3 e4 e5 e6 e7 e8
    rw [e5, List.append_nil] at e3
    refine ⟨a, w, ha, hw, by rw [e1, e7, e3]; simp, ?_⟩
    rw [e6, e4, e5, e8, e2, e1, e7, e3]
    simp
  · rintro ⟨a, w, ha, hw, rfl, rfl⟩
    refine ⟨(w ++ ['%'], [(.number, a.text)]), ?_, ?_⟩
    · rw [Re.run, List.mem_map]
      exact ⟨(w ++ ['%'], []), amount_accepts.mpr ⟨a, ha, by simp, rfl⟩, by simp⟩
    · rw [Re.run, List.mem_flatMap]
      refine ⟨(['%'], [(.number, a.text)]), (star_accepts _ _ _ _).mpr ⟨w, hw, rfl, rfl⟩, ?_⟩
      rw [Re.run, List.mem_flatMap]
      refine ⟨([], [(.unit, ['%']), (.number, a.text)]), ?_, eos_accepts.mpr ⟨rfl, rfl⟩⟩
      rw [Re.run, List.mem_map]
      exact ⟨([], [(.number, a.text)]), lit_accepts.mpr ⟨by simp, rfl⟩, by simp⟩

theorem captures_mem {r : Re} {s : Str} {m : Match} (h : r.captures s = some m) : (m.rest, m.caps) ∈ r.run s [] := by
  unfold Re.captures at h
  cases e : r.run s [] with
  | nil => rw [e] at h; cases h
  | cons q qs => rw [e] at h; cases h; simp

theorem captures_some {r : Re} {s : Str} {q : Str × Caps} (h : q ∈ r.run s []) : ∃ m, r.captures s = some m := by
  unfold Re.captures
  cases e : r.run s [] with
  | nil => rw [e] at h; cases h
  | cons q qs => exact ⟨_, rfl⟩

theorem unit_facts : ∀ u ∈ units.map (·.1), (∃ c t, u = c :: t ∧ isWs c = false ∧ (c.isDigit || c == '.') = false) ∧
    ∃ d, u.getLast? = some d ∧ isWs d = false := by
  intro u hu
  simp only [units, List.map_cons, List.map_nil, List.mem_cons, List.not_mem_nil, or_false] at hu
  rcases hu with rfl | rfl | rfl | rfl | rfl | rfl | rfl | rfl <;>
    exact ⟨⟨_, _, rfl, by decide, by decide⟩, _, rfl, by decide⟩

theorem amount_class {a : Amount} (h : a.Ok) : ∀ c ∈ a.text, (c.isDigit || c == '.') = true := by
  intro c hc
  rcases amount_chars h c hc with h | h <;> simp [h]

theorem head_of_mem {α : Type} {t u : List α} {c : α} (hne : t ≠ []) (h : (t ++ u).head? = some c) : c ∈ t := by
  cases t with
  | nil => exact absurd rfl hne
  | cons d t => simp at h; simp [h]

theorem last_of_append {α : Type} {t u : List α} {c : α} (h : u.getLast? = some c) : (t ++ u).getLast? = some c := by
  rw [List.getLast?_append, h]; rfl

theorem length_units {a : Amount} {x : Length} : ∀ {u : Str}, u ∈ units.map (·.1) → ∀ n : F64,
    ((if u = str! "em" then some (Length.Em n)
      else if u = str! "ex" then some (.Ex n)
      else if u = str! "mm" then some (.Mm n)
      else if u = str! "cm" then some (.Cm n)
      else if u = str! "in" then some (.In n)
      else if u = str! "px" then some (.Px n)
      else if u = str! "pt" then some (.Pt n)
      else if u = str! "pc" then some (.Pc n)
      else none) = some x ↔ ∃ make, (u, make) ∈ units ∧ x = make n) := by
  intro u hu n
  have eqs : ∀ {y : F64 → Length}, (some (y n) = some x ↔ x = y n) := fun {y} => by rw [Option.some.injEq, eq_comm]
  simp only [units, List.map_cons, List.map_nil, List.mem_cons, List.not_mem_nil, or_false] at hu
  rcases hu with rfl | rfl | rfl | rfl | rfl | rfl | rfl | rfl <;>
    simp [units, eq_comm]

/-- **C79.** A length is read if and only if it is a number followed by one of the units, with white space around it or not; the length that
is read is this number of this unit. -/
theorem C79_lengths (s : Str) (x : Length) :
    strToLength s = some x ↔
      ∃ (a : Amount) (unit : Str) (make : F64 → Length), a.Ok ∧ (unit, make) ∈ units ∧ Around s (a.text ++ unit) ∧ x = make a.value := by
  have key : ∀ {a : Amount} {u : Str}, a.Ok → u ∈ units.map (·.1) → (trim s = a.text ++ u ↔ Around s (a.text ++ u)) := by
    intro a u ha hu
    obtain ⟨_, d, hd, hw⟩ := unit_facts u hu
    refine trim_around (fun c hc => amount_not_ws ha c (head_of_mem (amount_ne ha) hc)) (fun c hc => ?_)
    rw [last_of_append hd] at hc
    cases hc; exact hw
  have named : ∀ {u : Str} {make : F64 → Length}, (u, make) ∈ units → u ∈ units.map (·.1) := fun h => List.mem_map.mpr ⟨_, h, rfl⟩
  unfold strToLength
  constructor
  · intro h
    cases e : reValidLength.captures (trim s) with
    | none => rw [e] at h; cases h
    | some m =>
      rw [e] at h
      obtain ⟨a, u, hu, ha, e1, e2⟩ := length_accepts.mp (captures_mem e)
      have e3 : m.caps = [(.unit, u), (.number, a.text)] := (Prod.mk.inj e2).2
      have g1 : m.get .number = some a.text := by simp [Match.get, e3]
      have g2 : m.get .unit = some u := by simp [Match.get, e3]
      simp only [g1, g2] at h
      obtain ⟨make, hm, hx⟩ := (length_units (a := a) hu _).mp h
      rw [parseF64_amount ha] at hx
      exact ⟨a, u, make, ha, hm, (key ha hu).mp e1, hx⟩
  · rintro ⟨a, u, make, ha, hm, har, rfl⟩
    have hu := named hm
    have e1 := (key ha hu).mpr har
    obtain ⟨m, e⟩ := captures_some (length_accepts.mpr ⟨a, u, hu, ha, e1, rfl⟩)
    rw [e]
    obtain ⟨a', u', hu', ha', e1', e2⟩ := length_accepts.mp (captures_mem e)
    obtain ⟨⟨c, t, rfl, _, hc⟩, _⟩ := unit_facts u hu
    obtain ⟨⟨c', t', rfl, _, hc'⟩, _⟩ := unit_facts u' hu'
    obtain ⟨ea, eu⟩ := span_unique (p := fun c => c.isDigit || c == '.') (amount_class ha) (amount_class ha')
      (fun d hd => by cases hd; exact hc) (fun d hd => by cases hd; exact hc') (e1.symm.trans e1')
    have e3 : m.caps = [(.unit, c :: t), (.number, a.text)] := by rw [ea, eu]; exact (Prod.mk.inj e2).2
    have g1 : m.get .number = some a.text := by simp [Match.get, e3]
    have g2 : m.get .unit = some (c :: t) := by simp [Match.get, e3]
    simp only [g1, g2]
    rw [parseF64_amount ha]
    exact (length_units (a := a) hu _).mpr ⟨make, hm, rfl⟩

/-- **C79.** A percentage is read if and only if it is a number followed by a percent sign, with white space around it or between them or not;
the percentage that is read is this number. -/
theorem C79_percentages (s : Str) (x : F64) :
    strToPercentage s = some x ↔
      ∃ (a : Amount) (w : Str), a.Ok ∧ (∀ c ∈ w, isWs c = true) ∧ Around s (a.text ++ w ++ ['%']) ∧ x = a.value := by
  have key : ∀ {a : Amount} {w : Str}, a.Ok → (trim s = a.text ++ w ++ ['%'] ↔ Around s (a.text ++ w ++ ['%'])) := by
    intro a w ha
    refine trim_around (fun c hc => amount_not_ws ha c (head_of_mem (u := w ++ ['%']) (amount_ne ha) (by simpa using hc))) (fun c hc => ?_)
    rw [last_of_append rfl] at hc
    cases hc; decide
  unfold strToPercentage
  constructor
  · intro h
    cases e : reValidPercentage.captures (trim s) with
    | none => rw [e] at h; cases h
    | some m =>
      rw [e] at h
      obtain ⟨a, w, ha, hw, e1, e2⟩ := percentage_accepts.mp (captures_mem e)
      have e3 : m.caps = [(.unit, ['%']), (.number, a.text)] := (Prod.mk.inj e2).2
      have g1 : m.get .number = some a.text := by simp [Match.get, e3]
      simp only [g1, Option.map_some, Option.some.injEq] at h
      exact ⟨a, w, ha, hw, (key ha).mp e1, by rw [← h, parseF64_amount ha]⟩
  · rintro ⟨a, w, ha, hw, har, rfl⟩
    have e1 := (key ha).mpr har
    obtain ⟨m, e⟩ := captures_some (percentage_accepts.mpr ⟨a, w, ha, hw, e1, rfl⟩)
    rw [e]
    obtain ⟨a', w', ha', hw', e1', e2⟩ := percentage_accepts.mp (captures_mem e)
    have stop : ∀ {w : Str}, (∀ c ∈ w, isWs c = true) → ∀ d, (w ++ ['%']).head? = some d → (d.isDigit || d == '.') = false := by
      intro w hw d hd
      cases w with
      | nil => cases hd; decide
      | cons c w =>
        simp at hd; subst hd
        have hcw := hw c (by simp)
        cases hdig : (c.isDigit || c == '.') with
        | false => rfl
        | true =>
          rcases Bool.or_eq_true_iff.mp hdig with h | h
          · exact absurd ((clsDigit_plain (cls_isDigit h)).1.symm.trans hcw) (by decide)
          · rw [beq_iff_eq] at h; subst h; exact absurd hcw (by decide)
    obtain ⟨ea, _⟩ := span_unique (p := fun c => c.isDigit || c == '.') (amount_class ha) (amount_class ha') (stop hw) (stop hw')
      (by simpa using e1.symm.trans e1')
    have e3 : m.caps = [(.unit, ['%']), (.number, a.text)] := by rw [ea]; exact (Prod.mk.inj e2).2
    have g1 : m.get .number = some a.text := by simp [Match.get, e3]
    simp only [g1, Option.map_some, parseF64_amount ha]

/-! ## Numbers -/

/-- **C79.** A number of columns, points, submissions and so on is read if and only if it consists of digits, with a plus sign in front of
them or not, and fits into the given number of bits; the number that is read is the one that the digits stand for. -/
theorem C79_numbers (bits n : Nat) (s : Str) :
    parseUint bits s = some n ↔
      ∃ ds : Str, ds ≠ [] ∧ (∀ c ∈ ds, c.isDigit = true) ∧ (s = ds ∨ s = '+' :: ds) ∧ n = readDigits ds ∧ n < 2 ^ bits := by
  have hd : ∀ {a : Str}, a.all clsDigit = true ↔ (∀ c ∈ a, c.isDigit = true) := fun {a} => by
    rw [List.all_eq_true]
    exact ⟨fun h c hc => isDigit_cls (h c hc), fun h c hc => cls_isDigit (h c hc)⟩
  have core : ∀ t : Str, ((if t.isEmpty || !t.all clsDigit then none
      else if digitsVal t < 2 ^ bits then some (digitsVal t) else none) = some n ↔
      (t ≠ [] ∧ (∀ c ∈ t, c.isDigit = true) ∧ n = readDigits t ∧ n < 2 ^ bits)) := by
    intro t
    by_cases h1 : t = []
    · simp [h1]
    · by_cases h2 : t.all clsDigit = true
      · have h3 : t.isEmpty = false := by simpa using h1
        simp only [h3, h2, Bool.not_true, Bool.or_self, Bool.false_eq_true, if_false]
        have ev : digitsVal t = readDigits t := rfl
        rw [ev]
        by_cases h4 : readDigits t < 2 ^ bits
        · simp only [h4, if_true, Option.some.injEq]
          exact ⟨fun e => ⟨h1, hd.mp h2, e.symm, e ▸ h4⟩, fun h => h.2.2.1.symm⟩
        · simp only [h4, if_false]
          exact ⟨(by intro e; cases e), fun h => absurd (h.2.2.1 ▸ h.2.2.2) h4⟩
      · simp only [h2, Bool.not_false, Bool.or_true, if_true]
        exact ⟨(by intro e; cases e), fun h => absurd (hd.mpr h.2.1) h2⟩
  unfold parseUint
  by_cases hp : (s.head? == some '+') = true
  · simp only [hp, if_true]
    obtain ⟨t, rfl⟩ : ∃ t, s = '+' :: t := by
      cases s with
      | nil => simp at hp
      | cons c t => simp at hp; exact ⟨t, by rw [hp]⟩
    rw [List.drop_succ_cons, List.drop_zero, core]
    constructor
    · rintro ⟨h1, h2, h3, h4⟩
      exact ⟨t, h1, h2, .inr rfl, h3, h4⟩
    · rintro ⟨ds, h1, h2, h5 | h5, h3, h4⟩
      · subst h5
        exact absurd (h2 '+' (by simp)) (by decide)
      · cases h5
        exact ⟨h1, h2, h3, h4⟩
  · simp only [hp]
    rw [core]
    constructor
    · rintro ⟨h1, h2, h3, h4⟩
      exact ⟨s, h1, h2, .inl rfl, h3, h4⟩
    · rintro ⟨ds, h1, h2, h5 | h5, h3, h4⟩
      · subst h5
        exact ⟨h1, h2, h3, h4⟩
      · subst h5
        exact absurd rfl hp

theorem amount_no_plus {a : Amount} (h : a.Ok) : '+' ∉ a.text := fun hm => by
  have := amount_class h _ hm
  revert this; decide

/-- **C79.** A width of a column that consists of digits, points and plus signs is read if and only if it is a number, with a plus sign in
front of it or not. -/
theorem C79_widths (x : F64) (s : Str) (hs : ∀ c ∈ s, c.isDigit = true ∨ c = '.' ∨ c = '+') :
    parseFloat s = some x ↔ ∃ a : Amount, a.Ok ∧ (s = a.text ∨ s = '+' :: a.text) ∧ x = a.value := by
  have core : ∀ t : Str,
      ((if t.all (fun c => clsDigit c || c == '.') && decide (t.count '.' ≤ 1) && t.any clsDigit then some (parseF64 t) else none) = some x ↔
      ∃ a : Amount, a.Ok ∧ t = a.text ∧ x = a.value) := by
    intro t
    constructor
    · intro h
      split at h
      · rename_i hc
        simp only [Bool.and_eq_true, decide_eq_true_eq] at hc
        obtain ⟨⟨h1, h2⟩, h3⟩ := hc
        rw [List.all_eq_true] at h1
        rw [List.any_eq_true] at h3
        obtain ⟨d, hd, hdig⟩ := h3
        have part : ∀ u : Str, (∀ c ∈ u, c ∈ t) → '.' ∉ u → ∀ c ∈ u, c.isDigit = true := by
          intro u hu hp c hc
          rcases Bool.or_eq_true_iff.mp (h1 c (hu c hc)) with h | h
          · exact isDigit_cls h
          · rw [beq_iff_eq] at h; subst h; exact absurd hc hp
        obtain ⟨a, ha, ht⟩ : ∃ a : Amount, a.Ok ∧ t = a.text := by
          by_cases hm : '.' ∈ t
          · obtain ⟨u, v, e⟩ := List.append_of_mem hm
            have hcount : u.count '.' = 0 ∧ v.count '.' = 0 := by
              rw [e, List.count_append, List.count_cons_self] at h2; omega
            have hu := List.count_eq_zero.mp hcount.1
            have hv := List.count_eq_zero.mp hcount.2
            refine ⟨⟨u, true, v⟩, ⟨part u (fun c hc => by rw [e]; simp [hc]) hu, part v (fun c hc => by rw [e]; simp [hc]) hv, by simp, ?_⟩,
              by simp [Amount.text, e]⟩
            rw [e] at hd
            rcases List.mem_append.mp hd with hd | hd
            · exact .inl (List.ne_nil_of_mem hd)
            · rcases List.mem_cons.mp hd with rfl | hd
              · exact absurd hdig (by decide)
              · exact .inr (List.ne_nil_of_mem hd)
          · exact ⟨⟨t, false, []⟩, ⟨part t (fun _ h => h) hm, by simp, by simp, .inl (List.ne_nil_of_mem hd)⟩, by simp [Amount.text]⟩
        refine ⟨a, ha, ht, ?_⟩
        cases h
        rw [ht, parseF64_amount ha]
      · cases h
    · rintro ⟨a, ha, rfl, rfl⟩
      have h1 : a.text.all (fun c => clsDigit c || c == '.') = true := by
        rw [List.all_eq_true]
        intro c hc
        rcases amount_chars ha c hc with h | h
        · simp [cls_isDigit h]
        · simp [h]
      have z : ∀ u : Str, (∀ c ∈ u, c.isDigit = true) → u.count '.' = 0 := fun u hu =>
        List.count_eq_zero.mpr fun hm => absurd (hu _ hm) (by decide)
      have h2 : a.text.count '.' ≤ 1 := by
        unfold Amount.text
        rw [List.count_append, z _ ha.whole]
        split
        · rw [List.count_cons_self, z _ ha.fraction]
        · simp
      have h3 : a.text.any clsDigit = true := by
        rw [List.any_eq_true]
        unfold Amount.text
        by_cases hw : a.whole = []
        · have hf := ha.digit.resolve_left (by simp [hw])
          have hp : a.point = true := by
            cases hp : a.point with
            | true => rfl
            | false => exact absurd (ha.pointless hp) hf
          obtain ⟨c, t, e⟩ := List.exists_cons_of_ne_nil hf
          exact ⟨c, by simp [hp, e], cls_isDigit (ha.fraction c (by simp [e]))⟩
        · obtain ⟨c, t, e⟩ := List.exists_cons_of_ne_nil hw
          exact ⟨c, by simp [e], cls_isDigit (ha.whole c (by simp [e]))⟩
      simp only [h1, h2, h3, decide_true, Bool.and_self, if_true, parseF64_amount ha]
  unfold parseFloat
  by_cases hp : (s.head? == some '+') = true
  · simp only [hp, if_true]
    obtain ⟨t, rfl⟩ : ∃ t, s = '+' :: t := by
      cases s with
      | nil => simp at hp
      | cons c t => simp at hp; exact ⟨t, by rw [hp]⟩
    rw [List.drop_succ_cons, List.drop_zero, core]
    constructor
    · rintro ⟨a, ha, rfl, e⟩
      exact ⟨a, ha, .inr rfl, e⟩
    · rintro ⟨a, ha, h5 | h5, e⟩
      · exact absurd (h5 ▸ List.mem_cons_self) (amount_no_plus ha)
      · cases h5
        exact ⟨a, ha, rfl, e⟩
  · simp only [hp]
    refine (core s).trans ⟨fun ⟨a, ha, h5, e⟩ => ⟨a, ha, .inl h5, e⟩, ?_⟩
    rintro ⟨a, ha, h5 | h5, e⟩
    · exact ⟨a, ha, h5, e⟩
    · subst h5
      exact absurd rfl hp

/-! ## Alignments -/

theorem fromTable_some {α : Type} {table : List (Str × α)} (hn : (table.map (·.1)).Nodup) {t : Str} {x : α} :
    fromTable table t = some x ↔ (t, x) ∈ table := by
  unfold fromTable
  induction table with
  | nil => simp
  | cons y ys ih =>
    rw [List.map_cons, List.nodup_cons] at hn
    rw [List.find?_cons]
    by_cases h : y.1 = t
    · simp only [h, decide_true, Option.map_some, Option.some.injEq, List.mem_cons]
      constructor
      · rintro rfl; left; rw [← h]
      · rintro (e | e)
        · rw [← e]
        · exact absurd (List.mem_map.mpr ⟨_, e, h.symm⟩) hn.1
    · simp only [h, decide_false]
      rw [ih hn.2, List.mem_cons]
      constructor
      · exact .inr
      · rintro (e | e)
        · exact absurd (by rw [← e]) h
        · exact e

/-- **C79.** An alignment of an image is read if and only if it is one of the six names, with white space around it or not. -/
theorem C79_image_alignments (s : Str) (x : HTMLAlignment) :
    strToHtmlAlignment s = some x ↔ ∃ name, (name, x) ∈ imageAlignments ∧ Around s name := by
  have e : strToHtmlAlignment s = fromTable imageAlignments (trim s) := by
    unfold strToHtmlAlignment fromTable imageAlignments
    simp only [List.find?_cons, List.find?_nil, eq_comm (a := trim s)]
    split
    · rename_i e; simp [e]
    rename_i e; simp only [e, decide_false]
    split
    · rename_i e; simp [e]
    rename_i e; simp only [e, decide_false]
    split
    · rename_i e; simp [e]
    rename_i e; simp only [e, decide_false]
    split
    · rename_i e; simp [e]
    rename_i e; simp only [e, decide_false]
    split
    · rename_i e; simp [e]
    rename_i e; simp only [e, decide_false]
    split
    · rename_i e; simp [e]
    rename_i e; simp [e]
  rw [e, fromTable_some (by decide)]
  have all : ∀ y ∈ imageAlignments, (∀ c, y.1.head? = some c → isWs c = false) ∧ (∀ c, y.1.getLast? = some c → isWs c = false) := by
    intro y hy
    simp only [imageAlignments, List.mem_cons, List.not_mem_nil, or_false] at hy
    rcases hy with rfl | rfl | rfl | rfl | rfl | rfl <;> exact ⟨(by rintro c ⟨⟩; decide), (by rintro c ⟨⟩; decide)⟩
  constructor
  · intro h
    exact ⟨_, h, (trim_around (all _ h).1 (all _ h).2).mp rfl⟩
  · rintro ⟨name, h, ha⟩
    rw [(trim_around (all _ h).1 (all _ h).2).mpr ha]
    exact h

/-- **C79.** An alignment of a figure is read if and only if it is one of the three names, with white space around it or not. -/
theorem C79_figure_alignments (s : Str) (x : HorizontalAlignment) :
    strToHorizontalAlignment s = some x ↔ ∃ name, (name, x) ∈ alignments ∧ Around s name := by
  have e : strToHorizontalAlignment s = fromTable alignments (trim s) := by
    unfold strToHorizontalAlignment fromTable alignments
    simp only [List.find?_cons, List.find?_nil, eq_comm (a := trim s)]
    split
    · rename_i e; simp [e]
    rename_i e; simp only [e, decide_false]
    split
    · rename_i e; simp [e]
    rename_i e; simp only [e, decide_false]
    split
    · rename_i e; simp [e]
    rename_i e; simp [e]
  rw [e, fromTable_some (by decide)]
  have all : ∀ y ∈ alignments, (∀ c, y.1.head? = some c → isWs c = false) ∧ (∀ c, y.1.getLast? = some c → isWs c = false) := by
    intro y hy
    simp only [alignments, List.mem_cons, List.not_mem_nil, or_false] at hy
    rcases hy with rfl | rfl | rfl <;> exact ⟨(by rintro c ⟨⟩; decide), (by rintro c ⟨⟩; decide)⟩
  constructor
  · intro h
    exact ⟨_, h, (trim_around (all _ h).1 (all _ h).2).mp rfl⟩
  · rintro ⟨name, h, ha⟩
    rw [(trim_around (all _ h).1 (all _ h).2).mpr ha]
    exact h

/-! ## Sample values -/

/-- `12.50 cm` in the notation of the source, with white space around it. -/
example : strToLength (str! "  12.50cm ") = some (.Cm ⟨1250, 100⟩) :=
  (C79_lengths _ _).mpr ⟨⟨str! "12", true, str! "50"⟩, str! "cm", .Cm, ⟨by decide, by decide, by decide, by decide⟩, by simp [units],
    ⟨str! "  ", str! " ", by decide, by decide, by decide⟩, by decide⟩

/-- A length does not have a sign, and there is no white space in front of the unit. -/
example : strToLength (str! "-1cm") = none ∧ strToLength (str! "1 cm") = none ∧ strToLength (str! "1") = none := by decide +kernel

example : strToPercentage (str! ".5 %") = some ⟨5, 10⟩ :=
  (C79_percentages _ _).mpr ⟨⟨[], true, str! "5"⟩, str! " ", ⟨by decide, by decide, by decide, by decide⟩, by decide,
    ⟨[], [], by decide, by decide, by decide⟩, by decide⟩

example : parseUint 32 (str! "+0012") = some 12 :=
  (C79_numbers _ _ _).mpr ⟨str! "0012", by decide, by decide, .inr rfl, by decide, by decide⟩

example : parseFloat (str! "+1.") = some ⟨1, 1⟩ ∧ parseFloat (str! "1.2.3") = none ∧ parseFloat (str! ".") = none := by decide

example : strToHtmlAlignment (str! " middle") = some .Middle :=
  (C79_image_alignments _ _).mpr ⟨str! "middle", by decide, ⟨str! " ", [], by decide, by decide, by decide⟩⟩

example : strToHorizontalAlignment (str! "center ") = some .Center :=
  (C79_figure_alignments _ _).mpr ⟨str! "center", by decide, ⟨[], str! " ", by decide, by decide, by decide⟩⟩

end Rustla
