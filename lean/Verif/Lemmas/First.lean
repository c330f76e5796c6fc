import Verif.Lemmas.Rel
import Verif.Lemmas.Explicit
import Verif.Model.Directives
/-! # The first way to match: greedy patterns that never have to give anything back -/
namespace Rustla

/-- The preferred way to match. -/
def First (r : Re) (s : Str) (cs : Caps) (q : Str × Caps) : Prop := ∃ zs, r.run s cs = q :: zs

theorem First.seq {a b : Re} {s : Str} {cs : Caps} {q q' : Str × Caps} (h : First a s cs q) (h' : First b q.1 q.2 q') :
    First (.seq a b) s cs q' := by
  obtain ⟨zs, h⟩ := h
  obtain ⟨ws, h'⟩ := h'
  exact ⟨_, by rw [Re.run, h, List.flatMap_cons, h']; rfl⟩

theorem First.left {a b : Re} {s : Str} {cs : Caps} {q : Str × Caps} (h : First a s cs q) : First (.alt a b) s cs q := by
  obtain ⟨zs, h⟩ := h
  exact ⟨_, by rw [Re.run, h]; rfl⟩

theorem First.right {a b : Re} {s : Str} {cs : Caps} {q : Str × Caps} (hd : a.run s cs = []) (h : First b s cs q) :
    First (.alt a b) s cs q := by
  obtain ⟨zs, h⟩ := h
  exact ⟨zs, by rw [Re.run, hd, h]; rfl⟩

theorem First.eps (s : Str) (cs : Caps) : First .eps s cs (s, cs) := ⟨[], by rw [Re.run]⟩

theorem First.opt {a : Re} {s : Str} {cs : Caps} {q : Str × Caps} (h : First a s cs q) : First (.opt a) s cs q := h.left

theorem First.opt_none {a : Re} {s : Str} {cs : Caps} (hd : a.run s cs = []) : First (.opt a) s cs (s, cs) := .right hd (.eps s cs)

theorem First.cap {g : Grp} {a : Re} {w s : Str} {cs cs' : Caps} (h : First a (w ++ s) cs (s, cs')) :
    First (.cap g a) (w ++ s) cs (s, (g, w) :: cs') := by
  obtain ⟨zs, h⟩ := h
  have e : (w ++ s).take ((w ++ s).length - s.length) = w := by simp
  refine ⟨zs.map fun q => (q.1, (g, (w ++ s).take ((w ++ s).length - q.1.length)) :: q.2), ?_⟩
  rw [Re.run, h, List.map_cons, e]

theorem First.cls {p : Char → Bool} {c : Char} (hc : p c = true) (s : Str) (cs : Caps) : First (.cls p) (c :: s) cs (s, cs) :=
  ⟨[], by rw [Re.run, if_pos hc]⟩

theorem First.starRun {p : Char → Bool} {w s : Str} (hw : ∀ c ∈ w, p c = true) (hs : ∀ c, s.head? = some c → p c = false) (cs : Caps) :
    ∀ n, w.length ≤ n → ∃ zs, starRun true (Re.cls p).run n (w ++ s) cs = (s, cs) :: zs := by
  induction w with
  | nil =>
    intro n _
    cases n with
    | zero => exact ⟨[], rfl⟩
    | succ n =>
      have : (Re.cls p).run s cs = [] := by
        cases s with
        | nil => rw [Re.run]
        | cons c s => rw [Re.run, if_neg (by rw [hs c rfl]; simp)]
      refine ⟨[], ?_⟩
      simp only [Rustla.starRun, List.nil_append, this, List.flatMap_nil, if_true]
  | cons c w ih =>
    intro n hn
    cases n with
    | zero => simp at hn
    | succ n =>
      obtain ⟨zs, hz⟩ := ih (fun x hx => hw x (by simp [hx])) n (by simpa using hn)
      refine ⟨zs ++ [(c :: (w ++ s), cs)], ?_⟩
      have hr : (Re.cls p).run (c :: (w ++ s)) cs = [(w ++ s, cs)] := by rw [Re.run, if_pos (hw c (by simp))]
      simp only [Rustla.starRun, List.cons_append, hr, List.flatMap_cons, List.flatMap_nil, List.append_nil, if_true,
        List.length_cons, Nat.lt_succ_self, hz]

theorem First.star {p : Char → Bool} {w s : Str} (hw : ∀ c ∈ w, p c = true) (hs : ∀ c, s.head? = some c → p c = false) (cs : Caps) :
    First (.star true (.cls p)) (w ++ s) cs (s, cs) := by
  obtain ⟨zs, hz⟩ := First.starRun hw hs cs (w ++ s).length (by simp)
  exact ⟨zs, by rw [Re.run]; exact hz⟩

theorem First.plus {p : Char → Bool} {w s : Str} (hne : w ≠ []) (hw : ∀ c ∈ w, p c = true) (hs : ∀ c, s.head? = some c → p c = false)
    (cs : Caps) : First (Re.plus true (.cls p)) (w ++ s) cs (s, cs) := by
  cases w with
  | nil => exact absurd rfl hne
  | cons c w => exact .seq (.cls (hw c (by simp)) (w ++ s) cs) (.star (fun x hx => hw x (by simp [hx])) hs cs)

theorem First.captures {r : Re} {w s : Str} {cs : Caps} (h : First r (w ++ s) [] (s, cs)) : r.captures (w ++ s) = some ⟨w, s, cs⟩ := by
  obtain ⟨zs, h⟩ := h
  unfold Re.captures
  rw [h]
  simp

theorem dropWhile_head (p : Char → Bool) (s : Str) : ∀ c, (s.dropWhile p).head? = some c → p c = false := by
  intro c hc
  have := List.head?_dropWhile_not p s
  rw [hc] at this
  simpa using this

theorem takeWhile_all (p : Char → Bool) (s : Str) : ∀ c ∈ s.takeWhile p, p c = true := by
  induction s with
  | nil => simp
  | cons a s ih =>
    rw [List.takeWhile_cons]
    split
    · rename_i h
      intro c hc
      rcases List.mem_cons.mp hc with rfl | hc
      · exact h
      · exact ih c hc
    · simp

/-- A greedy optional group takes the longest run of its characters. -/
theorem First.group (g : Grp) (p : Char → Bool) (s : Str) (cs : Caps) :
    First (Re.opt (.cap g (Re.plus true (.cls p)))) s cs
      (s.dropWhile p, if s.takeWhile p = [] then cs else (g, s.takeWhile p) :: cs) := by
  have hhead := dropWhile_head p s
  have e : s.takeWhile p ++ s.dropWhile p = s := List.takeWhile_append_dropWhile
  split
  · rename_i h
    have e2 : s.dropWhile p = s := by rw [h] at e; exact e
    rw [e2]
    refine .opt_none ?_
    have : (Re.cls p).run s cs = [] := by
      cases hs : s with
      | nil => rw [Re.run]
      | cons c t => rw [e2] at hhead; rw [Re.run, if_neg (by rw [hhead c (by rw [hs]; rfl)]; simp)]
    rw [Re.run, Re.plus, Re.run, this]; rfl
  · rename_i h
    have := First.opt (.cap (g := g) (.plus (p := p) h (takeWhile_all p s) hhead cs))
    rwa [e] at this

/-- A single optional character. -/
theorem First.single (g : Grp) (p : Char → Bool) (s : Str) (cs : Caps) :
    First (Re.opt (.cap g (.cls p))) s cs
      (match s with
        | [] => (s, cs)
        | c :: t => if p c then (t, (g, [c]) :: cs) else (s, cs)) := by
  cases s with
  | nil => exact .opt_none (by rw [Re.run, Re.run]; rfl)
  | cons c t =>
    by_cases h : p c = true
    · simp only [h, if_true]
      exact .opt (.cap (w := [c]) (.cls h t cs))
    · simp only [h, Bool.false_eq_true, if_false]
      exact .opt_none (by rw [Re.run, Re.run, if_neg h]; rfl)

/-- The longest run of some characters. -/
theorem First.run (p : Char → Bool) (s : Str) (cs : Caps) : First (.star true (.cls p)) s cs (s.dropWhile p, cs) := by
  have := First.star (p := p) (takeWhile_all p s) (dropWhile_head p s) cs
  rwa [List.takeWhile_append_dropWhile] at this

theorem upper_cls (c : Char) : clsUpper c = c.isUpper := by
  rw [Bool.eq_iff_iff]
  simp only [clsUpper, Char.isUpper, Bool.and_eq_true, decide_eq_true_eq]
  rfl

theorem digit_cls (c : Char) : clsDigit c = c.isDigit := by
  simp only [clsDigit, Char.isDigit]
  rfl

open Spec in
/-- The arguments of exercises. -/
theorem exercise_parts (t : Str) : keyDifficultyPoints t = exerciseParts t := by
  have ha : clsAlnum = Char.isAlphanum := by funext c; rw [Bool.eq_iff_iff]; exact alnum_cls
  have hu : clsUpper = Char.isUpper := funext upper_cls
  have hd : clsDigit = Char.isDigit := funext digit_cls
  have h1 := First.group .key clsAlnum t []
  have h2 := First.run (· == ' ') (t.dropWhile clsAlnum) (if t.takeWhile clsAlnum = [] then [] else [(.key, t.takeWhile clsAlnum)])
  generalize hr : (t.dropWhile clsAlnum).dropWhile (· == ' ') = r at h2
  generalize hc1 : (if t.takeWhile clsAlnum = [] then [] else [(Grp.key, t.takeWhile clsAlnum)]) = c1 at h1 h2
  have h3 := First.single .difficulty clsUpper r c1
  have h4 := First.group .maxPoints clsDigit (match r with
        | [] => (r, c1)
        | c :: t => if clsUpper c then (t, (.difficulty, [c]) :: c1) else (r, c1)).1 (match r with
        | [] => (r, c1)
        | c :: t => if clsUpper c then (t, (.difficulty, [c]) :: c1) else (r, c1)).2
  have h : First reExerciseArgs t [] _ := .seq h1 (.seq h2 (.seq h3 h4))
  obtain ⟨zs, hz⟩ := h
  unfold keyDifficultyPoints Re.captures exerciseParts
  rw [hz, ← ha, ← hu, ← hd, hr]
  subst hc1
  cases r with
  | nil =>
    by_cases hk : t.takeWhile clsAlnum = [] <;> simp [hk, Match.getD, Match.get]
  | cons c r =>
    by_cases hc : clsUpper c = true
    · by_cases hk : t.takeWhile clsAlnum = [] <;> by_cases hp : r.takeWhile clsDigit = [] <;>
        simp [hk, hc, hp, Match.getD, Match.get]
    · by_cases hk : t.takeWhile clsAlnum = [] <;> by_cases hp : (c :: r).takeWhile clsDigit = [] <;>
        simp [hk, hc, hp, Match.getD, Match.get]

theorem takeWhile_run {p : Char → Bool} {w s : Str} (hw : ∀ c ∈ w, p c = true) (hs : ∀ c, s.head? = some c → p c = false) :
    (w ++ s).takeWhile p = w ∧ (w ++ s).dropWhile p = s := by
  induction w with
  | nil =>
    cases s with
    | nil => exact ⟨rfl, rfl⟩
    | cons c s => simp [hs c rfl]
  | cons c w ih =>
    have := ih (fun x hx => hw x (by simp [hx]))
    simp [hw c (by simp), this]

open Spec in
/-- Well-formed arguments are read completely. -/
theorem exercise_read {a : Exercise} (h : a.Ok) : keyDifficultyPoints a.text = (a.key, a.level, a.points) := by
  have hlevel : ∀ c, (a.level ++ a.points).head? = some c → c ≠ ' ' := by
    intro c hc e
    subst e
    rcases h.level with e | ⟨u, e, hu⟩
    · rw [e] at hc
      exact absurd (h.points ' ' (List.mem_of_mem_head? hc)) (by decide)
    · rw [e] at hc
      simp at hc
      subst hc
      exact absurd hu (by decide)
  have hgap : ∀ c, (List.replicate a.gap ' ' ++ (a.level ++ a.points)).head? = some c → c.isAlphanum = false := by
    intro c hc
    cases hg : a.gap with
    | zero => rw [hg, (h.gap hg).1, (h.gap hg).2] at hc; simp at hc
    | succ n => rw [hg] at hc; simp [List.replicate_succ] at hc; subst hc; decide
  have e : a.text = a.key ++ (List.replicate a.gap ' ' ++ (a.level ++ a.points)) := by simp [Exercise.text]
  have h1 := takeWhile_run h.key.2 hgap
  have h2 := takeWhile_run (p := (· == ' ')) (w := List.replicate a.gap ' ') (s := a.level ++ a.points)
    (by intro c hc; rw [List.eq_of_mem_replicate hc]; rfl) (by intro c hc; simpa using hlevel c hc)
  have h3 : a.points.takeWhile Char.isDigit = a.points := by
    have := (takeWhile_run (p := Char.isDigit) (w := a.points) (s := []) h.points (by simp)).1
    simpa using this
  rw [exercise_parts, exerciseParts, e, h1.1, h1.2, h2.2]
  rcases h.level with e | ⟨u, e, hu⟩
  · rw [e]
    have hup : (a.points.take 1).filter Char.isUpper = [] := by
      cases hp : a.points with
      | nil => rfl
      | cons c t =>
        have hd := h.points c (by rw [hp]; simp)
        have : c.isUpper = false := by
          simp only [Char.isDigit, Char.isUpper, Bool.and_eq_true, decide_eq_true_eq] at *
          simp only [decide_eq_false_iff_not, not_and]
          intro h3 h4
          have h5 := Nat.le_trans (UInt32.le_iff_toNat_le.mp h3) (UInt32.le_iff_toNat_le.mp hd.2)
          exact absurd h5 (by decide)
        simp [this]
    simp [hup, h3]
  · rw [e]; simp [hu, h3]

theorem starRun_rest {p : Char → Bool} : ∀ {n : Nat} {x : Str} {cs : Caps} {q : Str × Caps},
    q ∈ starRun true (Re.cls p).run n x cs → q.2 = cs ∧ ∃ y, x = y ++ q.1 ∧ ∀ c ∈ y, p c = true := by
  intro n
  induction n with
  | zero =>
    intro x cs q h
    simp only [starRun, List.mem_singleton] at h
    subst h
    exact ⟨rfl, [], rfl, by simp⟩
  | succ n ih =>
    intro x cs q h
    simp only [starRun, if_true, List.mem_append, List.mem_singleton] at h
    rcases h with h | rfl
    · obtain ⟨r, hr, hq⟩ := List.mem_flatMap.mp h
      cases x with
      | nil => rw [Re.run] at hr; cases hr
      | cons c x =>
        by_cases hc : p c = true
        · rw [Re.run, if_pos hc, List.mem_singleton] at hr
          subst hr
          simp only [List.length_cons, Nat.lt_succ_self, if_true] at hq
          obtain ⟨h1, y, h2, h3⟩ := ih hq
          refine ⟨h1, c :: y, by simp [← h2], ?_⟩
          intro z hz
          rcases List.mem_cons.mp hz with rfl | hz
          · exact hc
          · exact h3 z hz
        · rw [Re.run, if_neg hc] at hr; cases hr
    · exact ⟨rfl, [], rfl, by simp⟩

/-- A greedy repetition: what it tries before it stops behind a given run of characters goes beyond that run. -/
theorem star_back {p : Char → Bool} {x : Str} (cs : Caps) : ∀ {w : Str} {n : Nat}, w.length ≤ n → (∀ c ∈ w, p c = true) →
    ∃ pre zs, starRun true (Re.cls p).run n (w ++ x) cs = pre ++ (x, cs) :: zs ∧
      ∀ q ∈ pre, q.2 = cs ∧ ∃ y, x = y ++ q.1 ∧ y ≠ [] ∧ ∀ c ∈ y, p c = true
  | [], 0, _, _ => ⟨[], [], rfl, by simp⟩
  | [], n + 1, _, _ => by
    refine ⟨_, [], by simp only [starRun, if_true, List.nil_append]; rfl, ?_⟩
    intro q hq
    obtain ⟨r, hr, hq⟩ := List.mem_flatMap.mp hq
    cases x with
    | nil => rw [Re.run] at hr; cases hr
    | cons c x =>
      by_cases hc : p c = true
      · rw [Re.run, if_pos hc, List.mem_singleton] at hr
        subst hr
        simp only [List.length_cons, Nat.lt_succ_self, if_true] at hq
        obtain ⟨h1, y, h2, h3⟩ := starRun_rest hq
        refine ⟨h1, c :: y, by simp [← h2], by simp, ?_⟩
        intro z hz
        rcases List.mem_cons.mp hz with rfl | hz
        · exact hc
        · exact h3 z hz
      · rw [Re.run, if_neg hc] at hr; cases hr
  | c :: w, 0, h, _ => by simp at h
  | c :: w, n + 1, h, hw => by
    obtain ⟨pre, zs, h1, h2⟩ := star_back (x := x) cs (w := w) (n := n) (by simpa using h) fun z hz => hw z (by simp [hz])
    refine ⟨pre, zs ++ [(c :: (w ++ x), cs)], ?_, h2⟩
    have hr : (Re.cls p).run (c :: (w ++ x)) cs = [(w ++ x, cs)] := by rw [Re.run, if_pos (hw c (by simp))]
    simp only [starRun, List.cons_append, hr, List.flatMap_cons, List.flatMap_nil, List.append_nil, if_true,
      List.length_cons, Nat.lt_succ_self, h1, List.append_assoc]

end Rustla
