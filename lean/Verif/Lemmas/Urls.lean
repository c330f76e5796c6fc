import Verif.Lemmas.Refs
import Verif.Lemmas.First
/-! # Addresses in running text -/
namespace Rustla
open Spec

/-- The first match of a pattern whose continuation succeeds. -/
def Lead (r : Re) (k : Str × Caps → List (Str × Caps)) (s : Str) (cs : Caps) (q : Str × Caps) : Prop :=
  ∃ zs, (r.run s cs).flatMap k = q :: zs

theorem Lead.seq {a b : Re} {k : Str × Caps → List (Str × Caps)} {s : Str} {cs : Caps} {q : Str × Caps}
    (h : Lead a (fun p => (b.run p.1 p.2).flatMap k) s cs q) : Lead (.seq a b) k s cs q := by
  obtain ⟨zs, h⟩ := h
  exact ⟨zs, by rw [Re.run, List.flatMap_assoc]; exact h⟩

theorem Lead.first {r : Re} {k : Str × Caps → List (Str × Caps)} {s : Str} {cs : Caps} {p q : Str × Caps} (h : First r s cs p)
    (hk : ∃ zs, k p = q :: zs) : Lead r k s cs q := by
  obtain ⟨zs, h⟩ := h
  obtain ⟨ws, hk⟩ := hk
  exact ⟨_, by rw [h, List.flatMap_cons, hk]; rfl⟩

theorem Lead.take {a : Re} {k : Str × Caps → List (Str × Caps)} {s : Str} {cs : Caps} {q : Str × Caps} (h : Lead a k s cs q) :
    Lead (Re.opt a) k s cs q := by
  obtain ⟨zs, h⟩ := h
  exact ⟨_, by rw [Re.opt, Re.run, List.flatMap_append, h]; rfl⟩

theorem Lead.skip {a : Re} {k : Str × Caps → List (Str × Caps)} {s : Str} {cs : Caps} {q : Str × Caps}
    (hd : (a.run s cs).flatMap k = []) (h : ∃ zs, k (s, cs) = q :: zs) : Lead (Re.opt a) k s cs q := by
  obtain ⟨zs, h⟩ := h
  exact ⟨zs, by rw [Re.opt, Re.run, List.flatMap_append, hd, List.nil_append]; simpa [Re.run] using h⟩

theorem Lead.to_first {a b : Re} {s : Str} {cs : Caps} {q : Str × Caps} (h : Lead a (fun p => b.run p.1 p.2) s cs q) :
    First (.seq a b) s cs q := by
  obtain ⟨zs, h⟩ := h
  exact ⟨zs, by rw [Re.run]; exact h⟩

/-- A greedy repetition gives back what the continuation needs. -/
theorem Lead.back {p : Char → Bool} {k : Str × Caps → List (Str × Caps)} {w x : Str} {cs : Caps} {q : Str × Caps}
    (hw : ∀ c ∈ w, p c = true) (hd : ∀ y z, x = y ++ z → y ≠ [] → (∀ c ∈ y, p c = true) → k (z, cs) = [])
    (h : ∃ zs, k (x, cs) = q :: zs) : Lead (.star true (.cls p)) k (w ++ x) cs q := by
  obtain ⟨pre, zs, h1, h2⟩ := star_back (p := p) (x := x) cs (w := w) (n := (w ++ x).length) (by simp) hw
  obtain ⟨ws, h⟩ := h
  have hpre : pre.flatMap k = [] := by
    rw [List.flatMap_eq_nil_iff]
    intro r hr
    obtain ⟨e, y, hy, hyn, hyp⟩ := h2 r hr
    have := hd y r.1 hy hyn hyp
    rw [← e] at this
    exact this
  exact ⟨_, by rw [Re.run, h1, List.flatMap_append, hpre, List.flatMap_cons, h]; rfl⟩

/-- A greedy repetition that does not help. -/
theorem star_dead {p : Char → Bool} {k : Str × Caps → List (Str × Caps)} {x : Str} {cs : Caps}
    (hd : ∀ y z, x = y ++ z → (∀ c ∈ y, p c = true) → k (z, cs) = []) : ((Re.star true (.cls p)).run x cs).flatMap k = [] := by
  rw [Re.run, List.flatMap_eq_nil_iff]
  intro r hr
  obtain ⟨e, y, hy, hyp⟩ := starRun_rest hr
  have := hd y r.1 hy hyp
  rw [← e] at this
  exact this

/-- One round of a repetition. -/
theorem star_step (a : Re) (s : Str) (cs : Caps) :
    (Re.star true a).run s cs =
      ((a.run s cs).flatMap fun r => if r.1.length < s.length then (Re.star true a).run r.1 r.2 else []) ++ [(s, cs)] := by
  cases s with
  | nil =>
    rw [Re.run]
    have : ((a.run [] cs).flatMap fun r => if r.1.length < ([] : Str).length then (Re.star true a).run r.1 r.2 else []) = [] := by
      rw [List.flatMap_eq_nil_iff]; intro r _; simp
    rw [this]; rfl
  | cons c s =>
    rw [Re.run, List.length_cons, starRun, if_pos rfl]
    congr 2
    funext r
    by_cases h : r.1.length < s.length + 1
    · rw [List.length_cons, if_pos h, if_pos h, Re.run]
      exact starRun_fuel _ _ _ _ _ _ (Nat.lt_succ_iff.mp h) (Nat.le_refl _)
    · rw [List.length_cons, if_neg h, if_neg h]

/-! ## Paths -/

/-- The last characters of an address. -/
abbrev uriEndRe : Re :=
  .seq (.cls clsUriSuffix) (.seq (Re.opt (.seq (.chr '?') (.cap .query (.seq (Re.plus true (.cls clsQueryChar))
    (.cls clsUriSuffix))))) (Re.opt (.seq (.chr '#') (.cap .fragment (.seq (Re.plus true (.cls clsAlnum))
    (.cls clsUriSuffix))))))

/-- What ends an address: possibly a full stop, and then something that is no part of an address. -/
structure UriEnd (dots e : Str) : Prop where
  dots : dots = [] ∨ dots = ['.']
  next : ∀ c, e.head? = some c → clsPathChar c = false ∧ clsPathChar2 c = false ∧ clsUriSuffix c = false ∧ c ∉ ['/', '?', '#']

theorem uriEnd_dead {dots e : Str} (h : UriEnd dots e) (cs : Caps) : uriEndRe.run e cs = [] ∧ uriEndRe.run (dots ++ e) cs = [] := by
  have h1 : uriEndRe.run e cs = [] := by
    refine run_seq_dead ?_
    cases e with
    | nil => rfl
    | cons c e => simp [Re.run, (h.next c rfl).2.2.1]
  refine ⟨h1, ?_⟩
  rcases h.dots with e1 | e1 <;> rw [e1]
  · exact h1
  · exact run_seq_dead (by simp [Re.run, show clsUriSuffix '.' = false from by decide])

theorem uriEnd_first {dots e : Str} (h : UriEnd dots e) {c : Char} (hc : clsUriSuffix c = true) (cs : Caps) :
    First uriEndRe (c :: (dots ++ e)) cs (dots ++ e, cs) := by
  have hh : ∀ m : Char, m ∈ ['?', '#'] → (dots ++ e).head? ≠ some m := by
    intro m hm
    rcases h.dots with e1 | e1 <;> rw [e1]
    · intro he
      have := (h.next m he).2.2.2
      revert this hm
      simp only [List.mem_cons, List.not_mem_nil, or_false, not_or]
      rintro (rfl | rfl) <;> simp
    · rintro he; cases he; revert hm; decide
  exact (First.cls hc _ _).seq ((First.opt_none (run_seq_dead (chr_dead (hh '?' (by simp)) _))).seq
    (First.opt_none (run_seq_dead (chr_dead (hh '#' (by simp)) _))))

/-- A segment of a path. -/
abbrev segRe : Re := .seq (.chr '/') (Re.plus true (.cls clsPathChar2))

/-- Segments of a path. -/
abbrev segsRe : Re := .seq (.star true segRe) (Re.opt (.chr '/'))

/-- Paths. -/
abbrev pathRe : Re := .seq (Re.opt (.chr '/')) (.seq (.star true (.cls clsPathChar)) segsRe)

/-- Where no segment starts, nothing is taken. -/
theorem segs_none {s : Str} (h : s.head? ≠ some '/') (cs : Caps) : segsRe.run s cs = [(s, cs)] := by
  have h1 : (Re.star true segRe).run s cs = [(s, cs)] := by
    rw [star_step, run_seq_dead (chr_dead h _)]; rfl
  rw [Re.run, h1, List.flatMap_singleton]
  show (Re.alt (.chr '/') .eps).run s cs = _
  rw [Re.run, chr_dead h]; rfl

theorem segs_unfold (k : Str × Caps → List (Str × Caps)) (t : Str) (cs : Caps) :
    (segsRe.run ('/' :: t) cs).flatMap k =
      (((Re.plus true (.cls clsPathChar2)).run t cs).flatMap fun r =>
        if r.1.length < t.length + 1 then (segsRe.run r.1 r.2).flatMap k else []) ++ (k (t, cs) ++ k ('/' :: t, cs)) := by
  have e1 : segRe.run ('/' :: t) cs = (Re.plus true (.cls clsPathChar2)).run t cs := by
    rw [Re.run, show (Re.chr '/').run ('/' :: t) cs = [(t, cs)] from by simp [Re.chr, Re.run], List.flatMap_singleton]
  have e2 : (Re.opt (.chr '/')).run ('/' :: t) cs = [(t, cs), ('/' :: t, cs)] := by simp [Re.opt, Re.chr, Re.run]
  rw [Re.run, star_step, e1, List.flatMap_append, List.flatMap_append, List.flatMap_singleton, e2]
  congr 1
  · simp only [List.flatMap_assoc]
    refine List.flatMap_congr fun r _ => ?_
    by_cases h : r.1.length < t.length + 1
    · rw [List.length_cons, if_pos h, if_pos h, Re.run, List.flatMap_assoc]
    · rw [List.length_cons, if_neg h, if_neg h]; rfl
  · simp

theorem uriEnd_split {dots e y z : Str} (h : UriEnd dots e) (hy : ∀ c ∈ y, clsPathChar2 c = true) (he : dots ++ e = y ++ z) :
    z = dots ++ e ∨ z = e := by
  cases y with
  | nil => exact .inl he.symm
  | cons a y =>
    rcases h.dots with e1 | e1 <;> rw [e1] at he ⊢
    · have := (h.next a (by simp only [List.nil_append] at he; rw [he]; rfl)).2.1
      rw [hy a (by simp)] at this; cases this
    · simp only [List.cons_append, List.nil_append, List.cons.injEq] at he
      cases y with
      | nil => exact .inr he.2.symm
      | cons b y =>
        have := (h.next b (by rw [he.2]; rfl)).2.1
        rw [hy b (by simp)] at this; cases this

theorem pathChar_eq (c : Char) : clsPathChar c = clsPathChar2 c := by
  simp only [clsPathChar, clsPathChar2]
  cases ('a' ≤ c && c ≤ 'z' : Bool) <;> cases ('A' ≤ c && c ≤ 'Z' : Bool) <;> rfl

/-- The continuation behind a path succeeds before the last character of the address, and nowhere behind it. -/
structure EndsAt (dots e : Str) (k : Str × Caps → List (Str × Caps)) (c : Char) (cs : Caps) (q : Str × Caps) : Prop where
  ends : UriEnd dots e
  after : k (e, cs) = []
  before : k (dots ++ e, cs) = []
  last : ∃ zs, k (c :: (dots ++ e), cs) = q :: zs

variable {dots e : Str} {k : Str × Caps → List (Str × Caps)} {c : Char} {cs : Caps} {q : Str × Caps}

theorem EndsAt.ne (h : EndsAt dots e k c cs q) : (dots ++ e).head? ≠ some '/' ∧ e.head? ≠ some '/' := by
  have h2 : e.head? ≠ some '/' := by
    intro he
    exact (h.ends.next _ he).2.2.2 (by simp)
  refine ⟨?_, h2⟩
  rcases h.ends.dots with e1 | e1 <;> rw [e1]
  · exact h2
  · simp

/-- No way to match a path goes on behind the address. -/
theorem EndsAt.dead (h : EndsAt dots e k c cs q) {y z : Str} (hy : ∀ c ∈ y, clsPathChar2 c = true) (he : dots ++ e = y ++ z) :
    (segsRe.run z cs).flatMap k = [] := by
  rcases uriEnd_split h.ends hy he with rfl | rfl
  · rw [segs_none h.ne.1]; simpa using h.before
  · rw [segs_none h.ne.2]; simpa using h.after

theorem plus_rest {p : Char → Bool} {x : Str} {cs : Caps} {r : Str × Caps} (h : r ∈ (Re.plus true (.cls p)).run x cs) :
    r.2 = cs ∧ ∃ y, x = y ++ r.1 ∧ y ≠ [] ∧ ∀ c ∈ y, p c = true := by
  obtain ⟨h1, m, h2, h3, h4⟩ := mem_plus_cls.mp h
  exact ⟨h1, m, h3, h2, h4⟩

/-- The segments of a path give back the last character. -/
theorem segs_lead (h : EndsAt dots e k c cs q) : ∀ (ss : List Str) (slash : Bool) (u : Str),
    (∀ s ∈ ss, s ≠ [] ∧ ∀ x ∈ s, clsPathChar2 x = true) → pathText ss slash = u ++ [c] →
    Lead segsRe k (pathText ss slash ++ (dots ++ e)) cs q
  | [], false, u, _, hu => by simp [pathText] at hu
  | [], true, u, _, hu => by
    have : c = '/' := by
      have := congrArg List.getLast? hu
      simpa [pathText] using this.symm
    subst this
    obtain ⟨zs, hq⟩ := h.last
    refine ⟨zs, ?_⟩
    show (segsRe.run ('/' :: (dots ++ e)) cs).flatMap k = _
    rw [segs_unfold, h.before, hq, List.nil_append]
    have : (((Re.plus true (.cls clsPathChar2)).run (dots ++ e) cs).flatMap fun r =>
        if r.1.length < (dots ++ e).length + 1 then (segsRe.run r.1 r.2).flatMap k else []) = [] := by
      rw [List.flatMap_eq_nil_iff]
      intro r hr
      obtain ⟨h1, y, h2, _, h4⟩ := plus_rest hr
      rw [h1, h.dead h4 h2]; simp
    rw [this]; rfl
  | [w], false, u, hs, hu => by
    obtain ⟨hw, hwp⟩ := hs w (by simp)
    obtain ⟨v, rfl⟩ : ∃ v, w = v ++ [c] := by
      have e0 : '/' :: w = u ++ [c] := by simpa [pathText] using hu
      cases u with
      | nil => simp only [List.nil_append, List.cons.injEq] at e0; exact absurd e0.2 hw
      | cons a u => simp only [List.cons_append, List.cons.injEq] at e0; exact ⟨u, e0.2⟩
    have hc2 : clsPathChar2 c = true := hwp c (by simp)
    have hcs : c ≠ '/' := by rintro rfl; revert hc2; decide
    obtain ⟨zs, hq⟩ := h.last
    have et : pathText [v ++ [c]] false ++ (dots ++ e) = '/' :: (v ++ c :: (dots ++ e)) := by simp [pathText]
    rw [et]
    unfold Lead
    rw [segs_unfold]
    have hlast : (segsRe.run (c :: (dots ++ e)) cs).flatMap k = q :: zs := by
      rw [segs_none (by simpa using hcs)]; simpa using hq
    cases v with
    | nil =>
      have : (((Re.plus true (.cls clsPathChar2)).run ([] ++ c :: (dots ++ e)) cs).flatMap fun r =>
          if r.1.length < ([] ++ c :: (dots ++ e)).length + 1 then (segsRe.run r.1 r.2).flatMap k else []) = [] := by
        rw [List.flatMap_eq_nil_iff]
        intro r hr
        obtain ⟨h1, y, h2, hne, h4⟩ := plus_rest hr
        cases y with
        | nil => exact absurd rfl hne
        | cons a y =>
          simp only [List.nil_append, List.cons_append, List.cons.injEq] at h2
          rw [h1, h.dead (fun x hx => h4 x (by simp [hx])) h2.2]; simp
      rw [this, List.nil_append, List.nil_append, hq]
      exact ⟨_, rfl⟩
    | cons a v =>
      have ha : clsPathChar2 a = true := hwp a (by simp)
      have hl := Lead.back (p := clsPathChar2) (k := fun r => if r.1.length < (a :: v ++ c :: (dots ++ e)).length + 1 then
          (segsRe.run r.1 r.2).flatMap k else []) (w := v) (x := c :: (dots ++ e)) (cs := cs) (q := q)
        (fun x hx => hwp x (by simp [hx])) (by
          intro y z hyz hne hy
          cases y with
          | nil => exact absurd rfl hne
          | cons b y =>
            simp only [List.cons_append, List.cons.injEq] at hyz
            dsimp only
            rw [h.dead (fun x hx => hy x (by simp [hx])) hyz.2]; simp) ⟨zs, by
          dsimp only
          rw [if_pos (by simp; omega)]; exact hlast⟩
      obtain ⟨ws, hl⟩ := hl
      have hp : (Re.plus true (.cls clsPathChar2)).run (a :: v ++ c :: (dots ++ e)) cs =
          (Re.star true (.cls clsPathChar2)).run (v ++ c :: (dots ++ e)) cs := by
        rw [Re.plus, Re.run, List.cons_append, Re.run, if_pos ha, List.flatMap_singleton]
      rw [hp, hl]
      exact ⟨_, rfl⟩
  | w :: w' :: ss, slash, u, hs, hu => more w (w' :: ss) slash u hs hu (.inl (by simp)) (fun u' hu' =>
      segs_lead h (w' :: ss) slash u' (fun s hs' => hs s (by simp [hs'])) hu')
  | [w], true, u, hs, hu => more w [] true u hs hu (.inr rfl) (fun u' hu' => segs_lead h [] true u' (by simp) hu')
where
  /-- Before the last segment, everything is taken. -/
  more (w : Str) (ss : List Str) (slash : Bool) (u : Str) (hs : ∀ s ∈ w :: ss, s ≠ [] ∧ ∀ x ∈ s, clsPathChar2 x = true)
      (hu : pathText (w :: ss) slash = u ++ [c]) (hne : ss ≠ [] ∨ slash = true)
      (ih : ∀ u', pathText ss slash = u' ++ [c] → Lead segsRe k (pathText ss slash ++ (dots ++ e)) cs q) :
      Lead segsRe k (pathText (w :: ss) slash ++ (dots ++ e)) cs q := by
    have et : pathText (w :: ss) slash = '/' :: (w ++ pathText ss slash) := by simp [pathText]
    obtain ⟨t, ht⟩ : ∃ t, pathText ss slash = '/' :: t := by
      cases ss with
      | nil =>
        have : slash = true := hne.resolve_left (by simp)
        subst this; exact ⟨_, rfl⟩
      | cons w' ss => exact ⟨_, rfl⟩
    obtain ⟨u', hu'⟩ : ∃ u', pathText ss slash = u' ++ [c] := by
      have hl : (pathText ss slash).getLast? = some c := by
        have := congrArg List.getLast? hu
        rw [et, ht] at this
        rw [ht]
        simpa [List.getLast?_cons] using this
      rcases List.eq_nil_or_concat (pathText ss slash) with h0 | ⟨l, b, h0⟩
      · rw [h0] at hl; cases hl
      · rw [h0, List.concat_eq_append] at hl ⊢
        simp only [List.getLast?_concat, Option.some.injEq] at hl
        exact ⟨l, by rw [hl]⟩
    obtain ⟨ws, hih⟩ := ih u' hu'
    obtain ⟨zs, hf⟩ := First.plus (p := clsPathChar2) (w := w) (s := pathText ss slash ++ (dots ++ e)) (hs w (by simp)).1 (hs w (by simp)).2
      (by rw [ht]; intro x hx; cases hx; decide) cs
    rw [et, List.cons_append, List.append_assoc]
    unfold Lead
    rw [segs_unfold, hf, List.flatMap_cons]
    rw [if_pos (by simp; omega)]
    simp only [hih, List.cons_append]
    exact ⟨_, rfl⟩

/-- The pattern for paths gives back the last character of the path. -/
theorem path_lead (h : EndsAt dots e k c cs q) (ss : List Str) (slash : Bool) (u : Str)
    (hs : ∀ s ∈ ss, s ≠ [] ∧ ∀ x ∈ s, clsPathChar2 x = true) (hu : pathText ss slash = u ++ [c]) :
    Lead pathRe k (pathText ss slash ++ (dots ++ e)) cs q := by
  have taken : ∀ {t : Str}, Lead (.seq (.star true (.cls clsPathChar)) segsRe) k t cs q → Lead pathRe k ('/' :: t) cs q := fun h' =>
    Lead.seq (Lead.take (.first (First.single_chr '/' _ _) h'))
  have dead : ((Re.seq (.star true (.cls clsPathChar)) segsRe).run (dots ++ e) cs).flatMap k = [] := by
    rw [Re.run, List.flatMap_assoc]
    refine star_dead (k := fun r => (segsRe.run r.1 r.2).flatMap k) fun y z hyz hy => ?_
    exact h.dead (fun x hx => by rw [← pathChar_eq]; exact hy x hx) hyz
  cases ss with
  | nil =>
    cases slash with
    | false => simp [pathText] at hu
    | true =>
      refine Lead.seq (Lead.skip ?_ ?_)
      · show ((Re.chr '/').run ('/' :: (dots ++ e)) cs).flatMap _ = []
        rw [show (Re.chr '/').run ('/' :: (dots ++ e)) cs = [(dots ++ e, cs)] from by simp [Re.chr, Re.run], List.flatMap_singleton]
        exact dead
      · refine Lead.seq (Lead.first (p := (pathText [] true ++ (dots ++ e), cs)) ?_ (segs_lead h [] true u hs hu))
        exact First.star (w := []) (by simp) (by intro x hx; cases hx; decide) cs
  | cons w ss =>
    obtain ⟨hw, hwp⟩ := hs w (by simp)
    by_cases hlast : ss = [] ∧ slash = false
    · obtain ⟨rfl, rfl⟩ := hlast
      obtain ⟨v, rfl⟩ : ∃ v, w = v ++ [c] := by
        have e0 : '/' :: w = u ++ [c] := by simpa [pathText] using hu
        cases u with
        | nil => simp only [List.nil_append, List.cons.injEq] at e0; exact absurd e0.2 hw
        | cons a u => simp only [List.cons_append, List.cons.injEq] at e0; exact ⟨u, e0.2⟩
      have hcs : c ≠ '/' := by rintro rfl; exact absurd (hwp '/' (by simp)) (by decide)
      have et : pathText [v ++ [c]] false ++ (dots ++ e) = '/' :: (v ++ c :: (dots ++ e)) := by simp [pathText]
      rw [et]
      refine taken (Lead.seq (Lead.back (fun x hx => by rw [pathChar_eq]; exact hwp x (by simp [hx])) ?_ ?_))
      · intro y z hyz hne hy
        cases y with
        | nil => exact absurd rfl hne
        | cons b y =>
          simp only [List.cons_append, List.cons.injEq] at hyz
          exact h.dead (fun x hx => by rw [← pathChar_eq]; exact hy x (by simp [hx])) hyz.2
      · obtain ⟨zs, hq⟩ := h.last
        refine ⟨zs, ?_⟩
        dsimp only
        rw [segs_none (by simpa using hcs)]; simpa using hq
    · obtain ⟨t, ht⟩ : ∃ t, pathText ss slash = '/' :: t := by
        cases ss with
        | nil => cases slash with
          | true => exact ⟨_, rfl⟩
          | false => exact absurd ⟨rfl, rfl⟩ hlast
        | cons w' ss => exact ⟨_, rfl⟩
      have et : pathText (w :: ss) slash = '/' :: (w ++ pathText ss slash) := by simp [pathText]
      obtain ⟨u', hu'⟩ : ∃ u', pathText ss slash = u' ++ [c] := by
        have hl : (pathText ss slash).getLast? = some c := by
          have := congrArg List.getLast? hu
          rw [et, ht] at this
          rw [ht]
          simpa [List.getLast?_cons] using this
        rcases List.eq_nil_or_concat (pathText ss slash) with h0 | ⟨l, b, h0⟩
        · rw [h0] at hl; cases hl
        · rw [h0, List.concat_eq_append] at hl ⊢
          simp only [List.getLast?_concat, Option.some.injEq] at hl
          exact ⟨l, by rw [hl]⟩
      rw [et, List.cons_append, List.append_assoc]
      refine taken (Lead.seq (Lead.first (p := (pathText ss slash ++ (dots ++ e), cs)) ?_
        (segs_lead h ss slash u' (fun s hs' => hs s (by simp [hs'])) hu')))
      exact First.star (fun x hx => by rw [pathChar_eq]; exact hwp x hx) (by rw [ht]; intro x hx; cases hx; decide) cs

/-! ## Addresses -/

/-- The schemes that are known to the program, in the order of the pattern. -/
abbrev schemesRe : Re := (Re.alts [(Re.lit (str! "about")), (Re.lit (str! "acap")), (Re.lit
    (str! "addbook")), (Re.lit (str! "afp")), (Re.lit (str! "afs")), (Re.lit (str! "aim")), (Re.lit (str!
    "callto")), (Re.lit (str! "castanet")), (Re.lit (str! "chttp")), (Re.lit (str! "cid")), (Re.lit (str!
    "crid")), (Re.lit (str! "data")), (Re.lit (str! "dav")), (Re.lit (str! "dict")), (Re.lit (str! "dns")),
    (Re.lit (str! "eid")), (Re.lit (str! "fax")), (Re.lit (str! "feed")), (Re.lit (str! "file")), (Re.lit
    (str! "finger")), (Re.lit (str! "freenet")), (Re.lit (str! "ftp")), (Re.lit (str! "go")), (Re.lit (str!
    "gopher")), (Re.lit (str! "gsm-sms")), (Re.lit (str! "h323")), (Re.lit (str! "h324")), (Re.lit (str!
    "hdl")), (Re.lit (str! "hnews")), (Re.lit (str! "http")), (Re.lit (str! "https")), (Re.lit (str!
    "hydra")), (Re.lit (str! "iioploc")), (Re.lit (str! "ilu")), (Re.lit (str! "im")), (Re.lit (str! "imap")),
    (Re.lit (str! "info")), (Re.lit (str! "ior")), (Re.lit (str! "ipp")), (Re.lit (str! "irc")), (.seq (Re.lit
    (str! "iris")) (.seq (.cls clsNotNewline) (Re.lit (str! "beep")))), (Re.lit (str! "iseek")), (Re.lit (str!
    "jar")), (Re.lit (str! "javascript")), (Re.lit (str! "jdbc")), (Re.lit (str! "ldap")), (Re.lit (str!
    "lifn")), (Re.lit (str! "livescript")), (Re.lit (str! "lrq")), (Re.lit (str! "mailbox")), (Re.lit (str!
    "mailserver")), (Re.lit (str! "mailto")), (Re.lit (str! "md5")), (Re.lit (str! "mid")), (Re.lit (str!
    "mocha")), (Re.lit (str! "modem")), (Re.lit (str! "mtqp")), (Re.lit (str! "mupdate")), (Re.lit (str!
    "news")), (Re.lit (str! "nfs")), (Re.lit (str! "nntp")), (Re.lit (str! "opaquelocktoken")), (Re.lit (str!
    "phone")), (Re.lit (str! "pop")), (Re.lit (str! "pop3")), (Re.lit (str! "pres")), (Re.lit (str!
    "printer")), (Re.lit (str! "prospero")), (Re.lit (str! "rdar")), (Re.lit (str! "res")), (Re.lit (str!
    "rtsp")), (Re.lit (str! "rvp")), (Re.lit (str! "rwhois")), (Re.lit (str! "rx")), (Re.lit (str! "sdp")),
    (Re.lit (str! "service")), (Re.lit (str! "shttp")), (Re.lit (str! "sip")), (Re.lit (str! "sips")), (Re.lit
    (str! "smb")), (Re.lit (str! "snews")), (Re.lit (str! "snmp")), (.seq (Re.lit (str! "soap")) (.seq (.cls
    clsNotNewline) (Re.lit (str! "beep")))), (.seq (Re.lit (str! "soap")) (.seq (.cls clsNotNewline) (Re.lit
    (str! "beeps")))), (Re.lit (str! "ssh")), (Re.lit (str! "t120")), (Re.lit (str! "tag")), (Re.lit (str!
    "tcp")), (Re.lit (str! "tel")), (Re.lit (str! "telephone")), (Re.lit (str! "telnet")), (Re.lit (str!
    "tftp")), (Re.lit (str! "tip")), (Re.lit (str! "tn3270")), (Re.lit (str! "tv")), (Re.lit (str! "urn")),
    (Re.lit (str! "uuid")), (Re.lit (str! "vemmi")), (Re.lit (str! "videotex")), (Re.lit (str!
    "view-source")), (Re.lit (str! "wais")), (Re.lit (str! "whodp")), (.seq (Re.lit (str! "whoi")) (Re.plus
    true (Re.plus true (.chr 's')))), (Re.lit (str! "x-man-page")), (.seq (Re.lit (str! "xmlrpc")) (.seq (.cls
    clsNotNewline) (Re.lit (str! "beep")))), (.seq (Re.lit (str! "xmlrpc")) (.seq (.cls clsNotNewline) (Re.lit
    (str! "beeps")))), (.seq (Re.lit (str! "z39")) (.seq (.cls clsNotNewline) (Re.lit (str! "50r")))), (.seq
    (Re.lit (str! "z39")) (.seq (.cls clsNotNewline) (Re.lit (str! "50s"))))])

set_option maxRecDepth 100000 in
theorem http_run (t : Str) (cs : Caps) : schemesRe.run ('h' :: 't' :: 't' :: 'p' :: ':' :: t) cs = [(':' :: t, cs)] := by
  rfl

set_option maxRecDepth 100000 in
theorem https_run (t : Str) (cs : Caps) : schemesRe.run ('h' :: 't' :: 't' :: 'p' :: 's' :: ':' :: t) cs =
    [('s' :: ':' :: t, cs), (':' :: t, cs)] := by
  rfl

set_option maxRecDepth 100000 in
theorem ftp_run (t : Str) (cs : Caps) : schemesRe.run ('f' :: 't' :: 'p' :: ':' :: t) cs = [(':' :: t, cs)] := by
  rfl

/-- Who is responsible for an address. -/
abbrev authorityRe : Re :=
  .cap .authority (.seq (Re.opt (.cap .g6 (.seq (.chr '/') (Re.opt (.chr '/'))))) (.seq (Re.opt (.seq (.cap
    .userinfo (.seq (Re.plus true (.cls clsAlnum2)) (.star true (.seq (.chr '.') (Re.plus true (.cls
    clsAlnum2)))))) (.chr '@'))) (.seq (.cap .host (.alt (.seq (Re.plus true (.cls clsAlnum)) (.star true
    (.seq (.cls clsHostSep) (Re.plus true (.cls clsAlnum))))) (.seq (Re.rep 1 3 (.cls clsDigit)) (Re.rep 3 3
    (.seq (.chr '.') (Re.rep 1 3 (.cls clsDigit))))))) (Re.opt (.seq (.chr ':') (.cap .port (Re.plus true
    (.cls clsDigit))))))))

/-- Addresses of mail boxes. -/
abbrev emailRe : Re :=
  .cap .email (.seq (Re.plus true (.cls clsMailChar)) (.seq (.star true (.seq
    (.chr '.') (Re.plus true (.cls clsMailChar2)))) (.seq (.chr '@') (.seq (Re.plus true (.cls clsMailChar))
    (.star true (.seq (.cls clsMailSep) (Re.plus true (.cls clsAlnum))))))))

/-- What may follow an address. -/
abbrev aheadRe : Re := .cap .lookahead (.alt (.cls isWs) (.alt (.cls clsUriLookahead) .eos))

theorem reUri_eq : reUri =
    .seq (Re.opt (.cap .lookbehind (.alt (.cls isWs) (.cls clsUriLookbehind)))) (.seq (.cap .content (.alt (.cap .absolute
      (.seq (.seq (.cap .scheme schemesRe) (.chr ':')) (.seq (Re.opt authorityRe) (.seq (.cap .path pathRe) uriEndRe)))) emailRe)) aheadRe) := rfl

/-- A known scheme. -/
theorem scheme_first {n : Str} (hn : n ∈ [str! "http", str! "https", str! "ftp"]) (t : Str) (cs : Caps) :
    First (.seq (.cap .scheme schemesRe) (.chr ':')) (n ++ ':' :: t) cs (t, (.scheme, n) :: cs) := by
  have cap : ∀ (s : Str) (g : Grp) (r : Re), (Re.cap g r).run s cs = (r.run s cs).map fun q => (q.1, (g, s.take (s.length - q.1.length)) :: q.2) := by
    intro s g r; rw [Re.run]
  have chr : ∀ (t : Str) (cs : Caps), (Re.chr ':').run (':' :: t) cs = [(t, cs)] := by intro t cs; simp [Re.chr, Re.run]
  simp only [List.mem_cons, List.not_mem_nil, or_false] at hn
  rcases hn with rfl | rfl | rfl
  · refine ⟨[], ?_⟩
    rw [Re.run, cap, show str! "http" ++ ':' :: t = 'h' :: 't' :: 't' :: 'p' :: ':' :: t from rfl, http_run, List.map_singleton, List.flatMap_singleton, chr]
    simp
  · refine ⟨[], ?_⟩
    rw [Re.run, cap, show str! "https" ++ ':' :: t = 'h' :: 't' :: 't' :: 'p' :: 's' :: ':' :: t from rfl, https_run, List.map_cons, List.map_singleton,
      List.flatMap_cons, List.flatMap_singleton, chr, run_chr_ne (by decide)]
    simp
  · refine ⟨[], ?_⟩
    rw [Re.run, cap, show str! "ftp" ++ ':' :: t = 'f' :: 't' :: 'p' :: ':' :: t from rfl, ftp_run, List.map_singleton, List.flatMap_singleton, chr]
    simp

/-- The host of an address. -/
theorem host_first {n : Name} (h : n.Ok ['-', '.', '+']) (t : Str) (cs : Caps) :
    First authorityRe ('/' :: '/' :: (n.text ++ '/' :: t)) cs
      ('/' :: t, (.authority, '/' :: '/' :: n.text) :: (.host, n.text) :: (.g6, ['/', '/']) :: cs) := by
  have e : '/' :: '/' :: (n.text ++ '/' :: t) = ('/' :: '/' :: n.text) ++ '/' :: t := by simp
  have hslash : First (Re.opt (.cap .g6 (.seq (.chr '/') (Re.opt (.chr '/'))))) ('/' :: '/' :: (n.text ++ '/' :: t)) cs
      (n.text ++ '/' :: t, (.g6, ['/', '/']) :: cs) :=
    First.opt (First.cap (w := ['/', '/']) ((First.single_chr '/' _ _).seq (First.opt (First.single_chr '/' _ _))))
  have hhost : ∀ cs, First (.cap .host (.alt (.seq (Re.plus true (.cls clsAlnum)) (.star true
      (.seq (.cls clsHostSep) (Re.plus true (.cls clsAlnum))))) (.seq (Re.rep 1 3 (.cls clsDigit)) (Re.rep 3 3
      (.seq (.chr '.') (Re.rep 1 3 (.cls clsDigit))))))) (n.text ++ '/' :: t) cs ('/' :: t, (.host, n.text) :: cs) := by
    intro cs
    obtain ⟨⟨hne, hall⟩, hrest⟩ := h
    obtain ⟨hnn, hstar⟩ := name_parts (a := .seq (.cls clsHostSep) (Re.plus true (.cls clsAlnum))) (cs := cs) (e := '/' :: t)
      (l := n.rest) (noName_chr (by decide)) (run_seq_dead (by simp [Re.run, show clsHostSep '/' = false from by decide])) (by
        intro p hp
        obtain ⟨h1, h2, h3⟩ := hrest p hp
        have hsep : clsHostSep p.1 = true ∧ p.1.isAlphanum = false := by
          have : (['-', '.', '+'].all fun c => clsHostSep c && !c.isAlphanum) = true := by decide
          have := List.all_eq_true.mp this _ h1
          simpa using this
        exact ⟨hsep.2, fun rest hr => (First.cls hsep.1 _ _).seq (name_plus h2 h3 hr _)⟩)
    refine First.cap (.left ?_)
    rw [Name.text, List.append_assoc]
    exact (name_plus hne hall hnn _).seq hstar
  have huser : ∀ cs, (Re.seq (.cap .userinfo (.seq (Re.plus true (.cls clsAlnum2)) (.star true (.seq (.chr '.') (Re.plus true (.cls
      clsAlnum2)))))) (.chr '@')).run (n.text ++ '/' :: t) cs = [] := by
    intro cs
    rw [Re.run, List.flatMap_eq_nil_iff]
    intro r hr
    obtain ⟨m, q1, e1, h1, rfl⟩ := mem_cap.mp hr
    refine chr_dead ?_ _
    dsimp only
    intro hh
    have hc : Consumes (fun c => c ≠ '/') (Re.plus true (.cls clsAlnum2)) := by
      have : Consumes (fun c => c ≠ '/') (.cls clsAlnum2) := .cls (by rintro c hc rfl; revert hc; decide)
      exact .seq this (.star this)
    obtain ⟨m, em, hm⟩ := Consumes.seq hc (Consumes.star (g := true) (Consumes.seq (.chr (a := '.') (P := fun c => c ≠ '/') (by decide)) hc)) _ _ _ h1
    obtain ⟨v, hv⟩ : ∃ v, q1.1 = '@' :: v := by
      cases hq1 : q1.1 with
      | nil => rw [hq1] at hh; cases hh
      | cons a t => rw [hq1] at hh; cases hh; exact ⟨t, rfl⟩
    rw [hv] at em
    have hat : '@' ∉ n.text := by
      obtain ⟨⟨hne, hall⟩, hrest⟩ := h
      intro hmem
      rcases List.mem_append.mp hmem with hmem | hmem
      · exact absurd (hall _ hmem) (by decide)
      · obtain ⟨l, hl, hmem⟩ := List.mem_flatten.mp hmem
        obtain ⟨p, hp, rfl⟩ := List.mem_map.mp hl
        obtain ⟨h1, _, h3⟩ := hrest p hp
        rcases List.mem_cons.mp hmem with h0 | h0
        · rw [← h0] at h1; revert h1; decide
        · exact absurd (h3 _ h0) (by decide)
    rcases List.append_eq_append_iff.mp em with ⟨u, e3, e2⟩ | ⟨u, e3, e2⟩
    · cases u with
      | nil => cases e2
      | cons a u =>
        cases e2
        exact hm '/' (by rw [e3]; simp) rfl
    · cases u with
      | nil => cases e2
      | cons a u =>
        cases e2
        exact hat (by rw [e3]; simp)
  rw [e]
  refine First.cap ?_
  rw [← e]
  refine hslash.seq ((First.opt_none (huser _)).seq ((hhost _).seq (First.opt_none (run_seq_dead (run_chr_ne (by decide) _)))))

theorem ahead_first {dots e : Str} (hd : dots = [] ∨ dots = ['.']) (hc : Closed e) (cs : Caps) :
    ∃ q, First aheadRe (dots ++ e) cs (q, (.lookahead, (dots ++ e).take 1) :: cs) := by
  have key : ∀ {c : Char} {t : Str}, (isWs c = true ∨ clsUriLookahead c = true) →
      First aheadRe (c :: t) cs (t, (.lookahead, [c]) :: cs) := by
    intro c t h
    refine First.cap (w := [c]) ?_
    cases hw : isWs c with
    | true => exact .left (.cls hw _ _)
    | false => exact .right (by simp [Re.run, hw]) (.left (.cls (h.resolve_left (by simp [hw])) _ _))
  rcases hd with rfl | rfl
  · cases e with
    | nil => exact ⟨[], [], by simp [Re.run]⟩
    | cons c e =>
      refine ⟨_, key ?_⟩
      rcases hc c rfl with h | h | ⟨rfl, _⟩
      · exact .inl h
      · have : (closing.all clsUriLookahead) = true := by decide
        exact .inr (List.all_eq_true.mp this c h)
      · exact .inr (by decide)
  · exact ⟨_, key (.inr (by decide))⟩

/-- What follows an address. -/
def Cut (r : Str) : Prop := (Closed r ∧ ∀ c, r.head? = some c → c ∉ ['-', '.', '/', '?']) ∨ ∃ e, r = '.' :: e ∧ AtEnd e

theorem cut_end {r : Str} (h : Cut r) : ∃ dots e, r = dots ++ e ∧ UriEnd dots e ∧ Closed e := by
  have ws : ∀ {c : Char}, isWs c = true → clsPathChar c = false ∧ clsPathChar2 c = false ∧ clsUriSuffix c = false ∧ c ∉ ['/', '?', '#'] := by
    intro c hc
    have no : ∀ {p : Char → Bool}, wsNats.all (fun n => !p (Char.ofNat n)) = true → p c = false := by
      intro p hp
      cases hpc : p c with
      | false => rfl
      | true => rw [cls_nonWs hp c hpc] at hc; cases hc
    refine ⟨no (by decide +kernel), no (by decide +kernel), no (by decide +kernel), ?_⟩
    intro hm
    have : (['/', '?', '#'].all fun c => !isWs c) = true := by decide
    have := List.all_eq_true.mp this c hm
    rw [hc] at this; cases this
  rcases h with ⟨h1, h2⟩ | ⟨e, rfl, he⟩
  · refine ⟨[], r, rfl, ⟨.inl rfl, ?_⟩, h1⟩
    intro c hc
    rcases h1 c hc with h | h | ⟨rfl, _⟩
    · exact ws h
    · have : ((closing.filter fun c => !(['-', '.', '/', '?'].contains c)).all fun c => !clsPathChar c && !clsPathChar2 c && !clsUriSuffix c &&
          !(['/', '?', '#'].contains c)) = true := by decide
      have := List.all_eq_true.mp this c (List.mem_filter.mpr ⟨h, by simpa using h2 c hc⟩)
      simpa [and_assoc] using this
    · decide
  · exact ⟨['.'], e, rfl, ⟨.inr rfl, fun c hc => ws (he c hc)⟩, fun c hc => .inl (he c hc)⟩

/-- The parts of the pattern for an address. -/
theorem url_captures {n : Str} (hn : n ∈ [str! "http", str! "https", str! "ftp"]) {host : Name} (hh : host.Ok ['-', '.', '+'])
    {ss : List Str} {slash : Bool} {u : Str} {c : Char} (hs : ∀ s ∈ ss, s ≠ [] ∧ ∀ x ∈ s, clsPathChar2 x = true)
    (hu : pathText ss slash = u ++ [c]) (hc : clsUriSuffix c = true) {r : Str} (hr : Cut r) :
    let text := n ++ ':' :: '/' :: '/' :: (host.text ++ pathText ss slash)
    ∃ w t v v', reUri.captures (text ++ r) = some ⟨w, t, (.lookahead, v) :: (.content, text) :: (.absolute, v') :: (.path, u) ::
      (.authority, '/' :: '/' :: host.text) :: (.host, host.text) :: (.g6, ['/', '/']) :: (.scheme, n) :: []⟩ := by
  intro text
  obtain ⟨dots, e, rfl, he, hcl⟩ := cut_end hr
  obtain ⟨t, ht⟩ : ∃ t, pathText ss slash = '/' :: t := by
    cases ss with
    | nil => cases slash with
      | true => exact ⟨_, rfl⟩
      | false => simp [pathText] at hu
    | cons w' ss => exact ⟨_, rfl⟩
  have hpath : ∀ cs, First (.seq (.cap .path pathRe) uriEndRe) (pathText ss slash ++ (dots ++ e)) cs (dots ++ e, (.path, u) :: cs) := by
    intro cs
    have hk : EndsAt dots e (fun p => uriEndRe.run p.1 ((.path, (pathText ss slash ++ (dots ++ e)).take
        ((pathText ss slash ++ (dots ++ e)).length - p.1.length)) :: p.2)) c cs (dots ++ e, (.path, u) :: cs) := by
      refine ⟨he, (uriEnd_dead he _).1, (uriEnd_dead he _).2, ?_⟩
      have := uriEnd_first he hc ((Grp.path, (pathText ss slash ++ (dots ++ e)).take
        ((pathText ss slash ++ (dots ++ e)).length - (c :: (dots ++ e)).length)) :: cs)
      have e2 : (pathText ss slash ++ (dots ++ e)).take ((pathText ss slash ++ (dots ++ e)).length - (c :: (dots ++ e)).length) = u := by
        rw [hu, show u ++ [c] ++ (dots ++ e) = u ++ (c :: (dots ++ e)) from by simp, take_sub]
      rw [e2] at this
      dsimp only
      rw [e2]
      exact this
    obtain ⟨zs, hz⟩ := path_lead hk ss slash u hs hu
    refine ⟨zs, ?_⟩
    rw [Re.run, show ∀ (g : Grp) (r : Re) (s : Str), (Re.cap g r).run s cs = (r.run s cs).map fun q => (q.1, (g, s.take (s.length - q.1.length)) :: q.2) from
      fun g r s => by rw [Re.run], List.flatMap_map]
    exact hz
  have habs : First (.cap .absolute (.seq (.seq (.cap .scheme schemesRe) (.chr ':')) (.seq (Re.opt authorityRe) (.seq (.cap .path pathRe) uriEndRe))))
      (text ++ (dots ++ e)) [] (dots ++ e, (.absolute, text) :: (.path, u) :: (.authority, '/' :: '/' :: host.text) :: (.host, host.text) ::
        (.g6, ['/', '/']) :: (.scheme, n) :: []) := by
    refine First.cap ?_
    have e1 : text ++ (dots ++ e) = n ++ ':' :: '/' :: '/' :: (host.text ++ '/' :: (t ++ (dots ++ e))) := by
      simp [text, ht]
    rw [e1]
    refine (scheme_first hn _ _).seq ((First.opt (host_first hh _ _)).seq ?_)
    have := hpath ((.authority, '/' :: '/' :: host.text) :: (.host, host.text) :: (.g6, ['/', '/']) :: (.scheme, n) :: [])
    rw [ht] at this
    exact this
  obtain ⟨q, hla⟩ := ahead_first he.dots hcl ((.content, text) :: (.absolute, text) :: (.path, u) :: (.authority, '/' :: '/' :: host.text) ::
    (.host, host.text) :: (.g6, ['/', '/']) :: (.scheme, n) :: [])
  obtain ⟨a, s, ea, haa⟩ : ∃ a s, text ++ (dots ++ e) = a :: s ∧ a.isAlphanum = true := by
    simp only [List.mem_cons, List.not_mem_nil, or_false] at hn
    rcases hn with rfl | rfl | rfl <;> exact ⟨_, _, rfl, by decide⟩
  have hb : First (Re.opt (.cap .lookbehind (.alt (.cls isWs) (.cls clsUriLookbehind)))) (text ++ (dots ++ e)) [] (text ++ (dots ++ e), []) := by
    rw [ea]
    have h := alnum_uriBehind haa
    simp only [Bool.or_eq_false_iff] at h
    exact First.opt_none (run_cap_dead (run_alt_dead (by simp [Re.run, h.1]) (by simp [Re.run, h.2])))
  have hall := hb.seq ((First.cap (g := .content) (First.left (b := emailRe) habs)).seq hla)
  rw [← reUri_eq] at hall
  obtain ⟨w, t', hw⟩ := hall.captures'
  exact ⟨w, t', _, _, hw⟩

end Rustla
