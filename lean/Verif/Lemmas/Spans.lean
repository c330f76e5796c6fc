import Verif.Spec.Markup
import Verif.Props.Inline
import Verif.Lemmas.PlainLines
/-! # Inline markup in the inline patterns -/
namespace Rustla
open Spec

/-! ## Lazy repetition -/

theorem starRun_cls_lazy (p : Char → Bool) : ∀ (n : Nat) (s : Str) (cs : Caps), s.length ≤ n →
    starRun false (Re.cls p).run n s cs = ((List.range ((s.takeWhile p).length + 1)).map fun k => (s.drop k, cs)) := by
  intro n
  induction n with
  | zero =>
    intro s cs h
    have : s = [] := by cases s with | nil => rfl | cons => simp at h
    subst this; simp [starRun]
  | succ n ih =>
    intro s cs h
    cases s with
    | nil => simp [starRun, Re.run]
    | cons c s =>
      by_cases hp : p c
      · simp only [starRun, Re.run, hp, if_true, List.flatMap_cons, List.flatMap_nil, List.length_cons,
          Nat.lt_succ_self, List.append_nil, List.takeWhile_cons]
        rw [ih s cs (by simpa using h)]
        rw [List.range_succ_eq_map (n := (List.takeWhile p s).length + 1)]
        simp [Function.comp_def]
      · simp [starRun, Re.run, hp]

theorem run_lazy_cls (p : Char → Bool) (s : Str) (cs : Caps) :
    (Re.star false (.cls p)).run s cs = ((List.range ((s.takeWhile p).length + 1)).map fun k => (s.drop k, cs)) :=
  starRun_cls_lazy p _ s cs (Nat.le_refl _)

/-- The pattern for the text between marks: the first way to match it that does not end inside the text `c` is to match
the whole of `c`. -/
theorem content_run {A F B : Char → Bool} {c e : Str} (cs : Caps) (hf : ∃ x, c.head? = some x ∧ F x = true)
    (hl : ∃ y, c.getLast? = some y ∧ A y = true) (hb : ∀ x ∈ c, B x = true) :
    ∃ pre post, (Re.alt (.cls A) (.seq (.cls F) (.seq (.star false (.cls B)) (.cls A)))).run (c ++ e) cs =
        pre ++ (e, cs) :: post ∧ ∀ q ∈ pre, q.2 = cs ∧ ∃ x y, c = x ++ y ∧ y ≠ [] ∧ q.1 = y ++ e := by
  obtain ⟨x, hx, hFx⟩ := hf
  obtain ⟨y, hy, hAy⟩ := hl
  cases c with
  | nil => simp at hx
  | cons a c =>
    simp only [List.head?_cons, Option.some.injEq] at hx
    subst hx
    by_cases hc : c = []
    · subst hc
      simp only [List.getLast?_singleton, Option.some.injEq] at hy
      subst hy
      have h1 : ∃ post, (Re.alt (.cls A) (.seq (.cls F) (.seq (.star false (.cls B)) (.cls A)))).run ([a] ++ e) cs =
          [] ++ (e, cs) :: post := by
        simp only [Re.run, List.cons_append, List.nil_append, hAy, if_true]
        exact ⟨_, rfl⟩
      obtain ⟨post, h1⟩ := h1
      exact ⟨[], post, h1, by simp⟩
    · -- the text has at least two characters
      obtain ⟨c', rfl⟩ : ∃ c', c = c' ++ [y] := by
        rw [List.getLast?_cons_of_ne_nil hc] at hy
        exact ⟨c.dropLast, by
          have := List.dropLast_append_getLast? y hy
          exact this.symm⟩
      have htw : c'.length + 1 ≤ (((c' ++ [y]) ++ e).takeWhile B).length := by
        rw [List.takeWhile_append_of_pos (fun z hz => hb z (List.mem_cons_of_mem _ hz))]
        simp
      obtain ⟨k, hk⟩ : ∃ k, (((c' ++ [y]) ++ e).takeWhile B).length + 1 = c'.length + (k + 1) :=
        ⟨(((c' ++ [y]) ++ e).takeWhile B).length - c'.length, by omega⟩
      have hrun : (Re.alt (.cls A) (.seq (.cls F) (.seq (.star false (.cls B)) (.cls A)))).run ((a :: (c' ++ [y])) ++ e) cs =
          (if A a then [((c' ++ [y]) ++ e, cs)] else []) ++
          ((List.range (c'.length + (k + 1))).map fun j => (((c' ++ [y]) ++ e).drop j, cs)).flatMap
            fun q => (Re.cls A).run q.1 q.2 := by
        simp only [Re.run, List.cons_append, hFx, if_true, List.flatMap_cons, List.flatMap_nil, List.append_nil]
        rw [show starRun false (Re.cls B).run _ _ cs = _ from run_lazy_cls B ((c' ++ [y]) ++ e) cs, hk]
      rw [hrun, List.range_add, List.map_append, List.flatMap_append, List.range_succ_eq_map]
      simp only [List.map_cons, List.map_map, List.flatMap_cons, Nat.add_zero]
      have hdrop : ((c' ++ [y]) ++ e).drop c'.length = y :: e := by
        rw [List.append_assoc, List.drop_left]; rfl
      rw [hdrop]
      simp only [Re.run, hAy, if_true, List.singleton_append]
      refine ⟨_, _, by rw [← List.append_assoc], ?_⟩
      intro q hq
      rcases List.mem_append.mp hq with hq | hq
      · split at hq
        · simp only [List.mem_singleton] at hq
          subst hq
          exact ⟨rfl, [a], c' ++ [y], rfl, by simp, rfl⟩
        · simp at hq
      · obtain ⟨r, hr, hq⟩ := List.mem_flatMap.mp hq
        obtain ⟨j, hj, rfl⟩ := List.mem_map.mp hr
        have hj' : j < c'.length := by simpa using hj
        have : (c' ++ [y] ++ e).drop j = c'.drop j ++ ([y] ++ e) := by
          rw [List.append_assoc, List.drop_append_of_le_length (by omega)]
        rw [this] at hq
        cases hd : c'.drop j with
        | nil =>
          have := congrArg List.length hd
          simp at this; omega
        | cons z zs =>
          rw [hd] at hq
          simp only [List.cons_append, Re.run] at hq
          split at hq
          · simp only [List.mem_singleton] at hq
            subst hq
            refine ⟨rfl, a :: c'.take j ++ [z], zs ++ [y], ?_, by simp, by simp⟩
            have : c' = c'.take j ++ z :: zs := by rw [← hd, List.take_append_drop]
            conv => lhs; rw [this]
            simp
          · simp at hq

/-- The head of a search result. -/
theorem flatMap_first {α β : Type} {f : α → List β} {pre post : List α} {x : α} {y : β} {ys : List β}
    (hp : ∀ q ∈ pre, f q = []) (hx : f x = y :: ys) : ∃ zs, (pre ++ x :: post).flatMap f = y :: zs := by
  rw [List.flatMap_append, List.flatMap_eq_nil_iff.mpr hp, List.nil_append, List.flatMap_cons, hx]
  exact ⟨_, rfl⟩

theorem run_lit (l s : Str) (cs : Caps) : (Re.lit l).run (l ++ s) cs = [(s, cs)] := by
  induction l with
  | nil => rfl
  | cons c l ih =>
    cases l with
    | nil => simp [Re.lit, Re.chr, Re.run]
    | cons c' l =>
      simp only [Re.lit, Re.run, Re.chr, List.cons_append, beq_self_eq_true, if_true, List.flatMap_cons, List.flatMap_nil,
        List.append_nil]
      simpa using ih

theorem run_lit_ne {x a : Char} {l s : Str} (h : a ≠ x) (cs : Caps) : (Re.lit (x :: l)).run (a :: s) cs = [] := by
  cases l with
  | nil => simp [Re.lit, Re.chr, Re.run, h]
  | cons c' l => simp [Re.lit, Re.chr, Re.run, h]

/-! ## What follows markup -/

/-- White space or the end of the text. -/
def AtEnd (s : Str) : Prop := ∀ c, s.head? = some c → isWs c = true

/-- White space, punctuation, a colon before white space, or the end of the text. -/
def Closed (s : Str) : Prop := ∀ c, s.head? = some c → isWs c = true ∨ c ∈ closing ∨ c = ':' ∧ AtEnd s.tail

/-- The look-ahead of the patterns. -/
abbrev lookaheadRe : Re := .cap .lookahead (.alt (.cls isWs) (.alt (.cls clsLookahead) .eos))

theorem closing_lookahead {c : Char} (h : c ∈ closing) : clsLookahead c = true := by
  have : closing.all clsLookahead = true := by decide
  exact List.all_eq_true.mp this c h

theorem lookahead_run {s : Str} (h : Closed s) (cs : Caps) : ∃ q t zs, lookaheadRe.run s cs = (q, (.lookahead, t) :: cs) :: zs := by
  cases s with
  | nil => exact ⟨[], [], [], by simp [Re.run]⟩
  | cons c s =>
    rcases h c rfl with hc | hc
    · simp only [Re.run, hc, if_true, List.singleton_append, List.map_cons]
      exact ⟨_, _, _, rfl⟩
    · have hla : clsLookahead c = true := by
        rcases hc with hc | ⟨rfl, _⟩
        · exact closing_lookahead hc
        · decide
      simp only [Re.run, hla, if_true, List.singleton_append, List.map_append, List.map_cons]
      cases isWs c
      · simp only [Bool.false_eq_true, if_false, List.map_nil, List.nil_append]
        exact ⟨_, _, _, rfl⟩
      · simp only [if_true, List.map_cons, List.cons_append]
        exact ⟨_, _, _, rfl⟩

/-! ## Text between marks -/

/-- The pattern for the text between marks. -/
abbrev contentRe : Re :=
  .alt (.cls clsNonWsNonBackslash) (.seq (.cls nonWs) (.seq (.star false (.cls clsAny)) (.cls clsNonWsNonBackslash)))

theorem any_true (c : Char) : clsAny c = true := by
  unfold clsAny; cases isWs c <;> rfl

theorem take_sub {a b : Str} : (a ++ b).take ((a ++ b).length - b.length) = a := by
  rw [List.length_append, Nat.add_sub_cancel, List.take_append_of_le_length (Nat.le_refl _), List.take_length]

/-- A text in which nothing but the end continues the match: the first match of the text is the whole of it. -/
theorem text_run {g : Grp} {c e : Str} (hx : ∃ x, c.head? = some x ∧ isWs x = false)
    (hy : ∃ y, c.getLast? = some y ∧ isWs y = false ∧ y ≠ '\\') (cs : Caps) (K : Str × Caps → List (Str × Caps))
    (hK : ∀ u v cs, c = u ++ v → v ≠ [] → K (v ++ e, cs) = []) {q : Str × Caps} {qs : List (Str × Caps)}
    (hq : K (e, (g, c) :: cs) = q :: qs) :
    ∃ zs, ((Re.cap g contentRe).run (c ++ e) cs).flatMap K = q :: zs := by
  obtain ⟨x, hx, hxw⟩ := hx
  obtain ⟨y, hy, hyw, hyb⟩ := hy
  obtain ⟨pre, post, h1, h2⟩ := content_run (A := clsNonWsNonBackslash) (F := nonWs) (B := clsAny) (c := c) (e := e) cs
    ⟨x, hx, by simp [nonWs, hxw]⟩ ⟨y, hy, by simp [clsNonWsNonBackslash, hyw, hyb]⟩ (fun z _ => any_true z)
  have e1 : (Re.cap g contentRe).run (c ++ e) cs =
      (pre ++ (e, cs) :: post).map fun q => (q.1, (g, (c ++ e).take ((c ++ e).length - q.1.length)) :: q.2) := by
    rw [← h1]; rfl
  rw [e1, List.map_append, List.map_cons]
  refine flatMap_first ?_ (x := (e, (g, (c ++ e).take ((c ++ e).length - e.length)) :: cs)) (by rw [take_sub]; exact hq)
  intro q hq
  obtain ⟨q', hq', rfl⟩ := List.mem_map.mp hq
  obtain ⟨_, u, v, huv, hv, hq1⟩ := h2 q' hq'
  rw [hq1]
  exact hK _ _ _ huv hv

theorem knit_split {m : Char} {a b : Str} (h : Knit m (a ++ m :: b)) : ∃ d, b.head? = some d ∧ d.isAlphanum = true := by
  induction a with
  | nil => exact h.1 rfl
  | cons c a ih => exact ih h.2

/-- A marked text followed by something that starts with the mark: the first match of the text is the whole of it. -/
theorem marked_run {m : Char} {c e : Str} (h : Marked m c) (cs : Caps) (K : Str × Caps → List (Str × Caps))
    (hK : ∀ a s cs, a ≠ m → K (a :: s, cs) = []) {q : Str × Caps} {qs : List (Str × Caps)}
    (hq : K (e, (.content, c) :: cs) = q :: qs) :
    ∃ zs, ((Re.cap .content contentRe).run (c ++ e) cs).flatMap K = q :: zs := by
  refine text_run h.2.1 h.2.2 cs K ?_ hq
  intro u v cs huv hv
  cases v with
  | nil => exact absurd rfl hv
  | cons b v =>
    refine hK _ _ _ ?_
    rintro rfl
    exact h.1 (by rw [huv]; simp)

/-- A statement about letters and digits that holds for each of them. -/
theorem alnum_cases {P : Char → Bool} (h : ((List.range 128).all fun n => !(Char.ofNat n).isAlphanum || P (Char.ofNat n)) = true)
    {c : Char} (hc : c.isAlphanum = true) : P c = true := by
  have hlt : c.toNat < 128 := by
    have := hc
    simp only [Char.isAlphanum, Char.isAlpha, Char.isUpper, Char.isLower, Char.isDigit, Bool.or_eq_true, Bool.and_eq_true,
      decide_eq_true_eq] at this
    have e : c.toNat = c.val.toNat := rfl
    rcases this with (⟨h1, h2⟩ | ⟨h1, h2⟩) | ⟨h1, h2⟩ <;>
      · have a1 := UInt32.le_iff_toNat_le.mp h1
        have a2 := UInt32.le_iff_toNat_le.mp h2
        have v1 : (90 : UInt32).toNat = 90 := rfl
        have v2 : (122 : UInt32).toNat = 122 := rfl
        have v3 : (57 : UInt32).toNat = 57 := rfl
        first | omega | (rw [e]; exact Nat.lt_of_le_of_lt a2 (by decide))
  have := List.all_eq_true.mp h c.toNat (List.mem_range.mpr hlt)
  rw [Char.ofNat_toNat, hc] at this
  simpa using this

theorem alnum_ahead {c : Char} (h : c.isAlphanum = true) : clsLookahead c = false := by
  simpa using alnum_cases (P := fun c => !clsLookahead c) (by decide +kernel) h

/-- A pattern for text between two marks. -/
abbrev pairRe (mk : Str) : Re :=
  .seq (Re.opt (.cap .lookbehind (.cls clsLookbehind))) (.seq (.cap .markupStart (Re.lit mk)) (.seq (.cap .content contentRe)
    (.seq (.cap .markupEnd (Re.lit mk)) lookaheadRe)))

theorem reEmph_pair : reEmph = pairRe ['*'] := rfl
theorem reStrong_pair : reStrongEmph = pairRe ['*', '*'] := rfl
theorem reLiteral_pair : reLiteral = pairRe ['`', '`'] := rfl

/-- The end of a text between marks. -/
abbrev pairEnd (mk : Str) : Re := .seq (.cap .markupEnd (Re.lit mk)) lookaheadRe

/-- Text between two marks is matched up to the first mark that may close it. -/
theorem pair_core {m : Char} {mk c rest : Str} (hm : clsLookbehind m = false) (hx : ∃ x, c.head? = some x ∧ isWs x = false)
    (hy : ∃ y, c.getLast? = some y ∧ isWs y = false ∧ y ≠ '\\')
    (hd : ∀ u v cs, c = u ++ v → v ≠ [] → (pairEnd (m :: mk)).run (v ++ ((m :: mk) ++ rest)) cs = []) (hr : Closed rest) :
    ∃ w t u, (pairRe (m :: mk)).captures ((m :: mk) ++ (c ++ ((m :: mk) ++ rest))) =
      some ⟨w, t, (.lookahead, u) :: (.markupEnd, m :: mk) :: (.content, c) :: (.markupStart, m :: mk) :: []⟩ := by
  obtain ⟨q, u, zs, hla⟩ := lookahead_run hr ((.markupEnd, m :: mk) :: (.content, c) :: (.markupStart, m :: mk) :: [])
  have hend : (Re.seq (.cap .markupEnd (Re.lit (m :: mk))) lookaheadRe).run ((m :: mk) ++ rest)
      ((.content, c) :: (.markupStart, m :: mk) :: []) =
      (q, (.lookahead, u) :: (.markupEnd, m :: mk) :: (.content, c) :: (.markupStart, m :: mk) :: []) :: zs := by
    rw [Re.run, Re.run, run_lit]
    simp only [List.map_cons, List.map_nil, List.flatMap_cons, List.flatMap_nil, List.append_nil, take_sub]
    exact hla
  obtain ⟨zs', hcont⟩ := text_run (e := (m :: mk) ++ rest) (g := .content) hx hy [(.markupStart, m :: mk)]
    (fun r => (Re.seq (.cap .markupEnd (Re.lit (m :: mk))) lookaheadRe).run r.1 r.2) (fun u v cs => hd u v cs) hend
  have hall : (pairRe (m :: mk)).run ((m :: mk) ++ (c ++ ((m :: mk) ++ rest))) [] =
      (q, (.lookahead, u) :: (.markupEnd, m :: mk) :: (.content, c) :: (.markupStart, m :: mk) :: []) :: zs' := by
    have e0 : (Re.opt (.cap .lookbehind (.cls clsLookbehind))).run ((m :: mk) ++ (c ++ ((m :: mk) ++ rest))) [] =
        [((m :: mk) ++ (c ++ ((m :: mk) ++ rest)), [])] := by
      simp [Re.opt, Re.run, hm]
    rw [Re.run, e0, List.flatMap_singleton, Re.run, Re.run, run_lit]
    simp only [List.map_cons, List.map_nil, List.flatMap_cons, List.flatMap_nil, List.append_nil, take_sub]
    rw [Re.run]
    exact hcont
  unfold Re.captures
  rw [hall]
  exact ⟨_, _, _, rfl⟩

/-- Where a text between marks does not end. -/
theorem between_dead {m : Char} {mk c rest : Str} (hal : m.isAlphanum = false) (hmk : mk = [] ∨ mk = [m]) (h : Knit m c) :
    ∀ u v cs, c = u ++ v → v ≠ [] → (pairEnd (m :: mk)).run (v ++ rest) cs = [] := by
  intro u v cs huv hv
  cases v with
  | nil => exact absurd rfl hv
  | cons b v =>
    by_cases hb : b = m
    · subst hb
      rw [huv] at h
      obtain ⟨a, ha, hda⟩ := knit_split h
      cases v with
      | nil => cases ha
      | cons y v =>
        cases ha
        have hne : a ≠ b := by rintro rfl; rw [hal] at hda; cases hda
        rcases hmk with rfl | rfl
        · have hw : isWs a = false := by simpa using alnum_cases (P := fun c => !isWs c) (by decide +kernel) hda
          have hl := alnum_ahead hda
          simp [Re.lit, Re.chr, Re.run, hw, hl]
        · exact run_seq_dead (run_cap_dead (by simp [Re.lit, Re.chr, Re.run, hne]))
    · exact run_seq_dead (run_cap_dead (run_lit_ne hb _))

/-- Text between two marks is matched up to the second mark. -/
theorem pair_captures {m : Char} {mk c rest : Str} (hm : clsLookbehind m = false) (hal : m.isAlphanum = false) (hmk : mk = [] ∨ mk = [m]) (h : Between m c)
    (hr : Closed rest) :
    ∃ w t u, (pairRe (m :: mk)).captures ((m :: mk) ++ (c ++ ((m :: mk) ++ rest))) =
      some ⟨w, t, (.lookahead, u) :: (.markupEnd, m :: mk) :: (.content, c) :: (.markupStart, m :: mk) :: []⟩ := by
  obtain ⟨h1, ⟨x, hx, hxw, _⟩, h3⟩ := h
  exact pair_core hm ⟨x, hx, hxw⟩ h3 (between_dead hal hmk h1) hr

/-- A mark too many at the end belongs to the text. -/
theorem pair_doubled {m : Char} {mk c rest : Str} (hm : clsLookbehind m = false) (hal : m.isAlphanum = false) (hw : isWs m = false) (hb : m ≠ '\\')
    (hl : clsLookahead m = false) (hmk : mk = [] ∨ mk = [m]) (h : Between m c) (hr : Closed rest) :
    ∃ w t u, (pairRe (m :: mk)).captures ((m :: mk) ++ ((c ++ [m]) ++ ((m :: mk) ++ rest))) =
      some ⟨w, t, (.lookahead, u) :: (.markupEnd, m :: mk) :: (.content, c ++ [m]) :: (.markupStart, m :: mk) :: []⟩ := by
  obtain ⟨h1, ⟨x, hx, hxw, _⟩, h3⟩ := h
  refine pair_core hm ⟨x, by rw [List.head?_append, hx]; rfl, hxw⟩ ⟨m, by simp, hw, hb⟩ ?_ hr
  intro u v cs huv hv
  rcases List.append_eq_append_iff.mp huv with ⟨l, _, e2⟩ | ⟨l, e1, e2⟩
  · cases l with
    | nil =>
      have e2 : v = [m] := by simpa using e2.symm
      subst e2
      rcases hmk with rfl | rfl <;> simp [Re.lit, Re.chr, Re.run, hw, hl]
    | cons y l =>
      have : l ++ v = [] := by simpa using (List.cons.inj e2).2.symm
      exact absurd (List.append_eq_nil_iff.mp this).2 hv
  · subst e2
    cases l with
    | nil => rcases hmk with rfl | rfl <;> simp [Re.lit, Re.chr, Re.run, hw, hl]
    | cons y l =>
      rw [List.append_assoc]
      exact between_dead hal hmk h1 u (y :: l) cs e1 (by simp)

/-- The step at text between two marks. -/
theorem pair_node (k : Paired) (d : Option DocTree) {w t u mk c : Str} :
    pairedDelimiter k ⟨w, t, (.lookahead, u) :: (.markupEnd, mk) :: (.content, c) :: (.markupStart, mk) :: []⟩ d =
      .ok ([k.node (escapeText c)], (mk ++ (c ++ mk)).length, d) := by
  simp [pairedDelimiter, Match.getD, Match.need, Match.get, C35_needs_lookbehind, behindNodes, bind, Except.bind, pure,
    Except.pure]
  omega

/-! ## Patterns that do not match -/

/-- The first two characters are not `m`. -/
theorem lead_dead {p : Char → Bool} {m : Char} {g g' : Grp} {l : Str} {r : Re} {s : Str} (h : ∀ x ∈ s.take 2, x ≠ m) (cs : Caps) :
    (Re.seq (Re.opt (.cap g (.cls p))) (.seq (.cap g' (Re.lit (m :: l))) r)).run s cs = [] := by
  rw [Re.run, List.flatMap_eq_nil_iff]
  intro q hq
  refine run_seq_dead (run_cap_dead ?_)
  have key : ∀ (t : Str) cs, (∀ x, t.head? = some x → x ≠ m) → (Re.lit (m :: l)).run t cs = [] := by
    intro t cs ht
    cases t with
    | nil => cases l <;> simp [Re.lit, Re.chr, Re.run]
    | cons a t => exact run_lit_ne (ht a rfl) _
  simp only [Re.opt, Re.run, List.mem_append, List.mem_map, List.mem_singleton] at hq
  rcases hq with ⟨q', hq', rfl⟩ | rfl
  · cases s with
    | nil => simp [Re.run] at hq'
    | cons a s =>
      simp only [Re.run] at hq'
      split at hq'
      · simp only [List.mem_singleton] at hq'
        subst hq'
        refine key _ _ fun x hx => h x ?_
        cases s with
        | nil => simp at hx
        | cons b s => simp at hx; simp [hx]
      · simp at hq'
  · refine key _ _ fun x hx => h x ?_
    cases s with
    | nil => simp at hx
    | cons b s => simp at hx; simp [hx]

theorem lead_captures {p : Char → Bool} {m : Char} {g g' : Grp} {l : Str} {r : Re} {s : Str} (h : ∀ x ∈ s.take 2, x ≠ m) :
    (Re.seq (Re.opt (.cap g (.cls p))) (.seq (.cap g' (Re.lit (m :: l))) r)).captures s = none := by
  rw [Re.captures_none_iff]; exact lead_dead h _

/-- The first character is no look-behind. -/
theorem behind_none {p : Char → Bool} {g : Grp} {a : Char} {s : Str} (h : p a = false) (cs : Caps) :
    (Re.opt (.cap g (.cls p))).run (a :: s) cs = [(a :: s, cs)] := by
  simp [Re.opt, Re.run, h]

/-- The first character is no look-behind and not `m`. -/
theorem head_captures {p : Char → Bool} {m : Char} {g g' : Grp} {l : Str} {r : Re} {a : Char} {s : Str} (h : p a = false)
    (hm : a ≠ m) :
    (Re.seq (Re.opt (.cap g (.cls p))) (.seq (.cap g' (Re.lit (m :: l))) r)).captures (a :: s) = none := by
  rw [Re.captures_none_iff, Re.run, behind_none h, List.flatMap_singleton]
  exact run_seq_dead (run_cap_dead (run_lit_ne hm _))

end Rustla
