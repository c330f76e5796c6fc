import Verif.Model.Common
/-! # C05, C06: reference names and dedenting -/
namespace Rustla

/-! ## Helper lemmas on `splitWs` -/

theorem splitWsAux_append_ws (a b cur : Str) (w : Char) (hw : isWs w = true) :
    splitWsAux (a ++ w :: b) cur = splitWsAux a cur ++ splitWs b := by
  induction a generalizing cur with
  | nil => simp only [List.nil_append, splitWsAux, hw, if_true]; split <;> simp [splitWs]
  | cons c cs ih =>
    simp only [List.cons_append, splitWsAux]
    split
    · split <;> simp [ih]
    · exact ih _

theorem splitWs_append_ws (a b : Str) (w : Char) (hw : isWs w = true) :
    splitWs (a ++ w :: b) = splitWs a ++ splitWs b := splitWsAux_append_ws a b [] w hw

theorem splitWsAux_nonempty (s cur : Str) : ∀ w ∈ splitWsAux s cur, w ≠ [] := by
  induction s generalizing cur with
  | nil =>
    simp only [splitWsAux]
    split
    · simp
    · rename_i h; simp at h; simpa using h
  | cons c cs ih =>
    simp only [splitWsAux]
    split
    · split
      · exact ih _
      · rename_i h
        intro w hw
        rcases List.mem_cons.mp hw with rfl | hw
        · simpa using h
        · exact ih _ w hw
    · exact ih _

theorem splitWsAux_no_ws (s cur : Str) (hc : ∀ c ∈ cur, isWs c = false) :
    ∀ w ∈ splitWsAux s cur, ∀ c ∈ w, isWs c = false := by
  induction s generalizing cur with
  | nil =>
    simp only [splitWsAux]
    split
    · simp
    · intro w hw c hcw
      simp only [List.mem_singleton] at hw
      subst hw
      exact hc c (List.mem_reverse.mp hcw)
  | cons c cs ih =>
    simp only [splitWsAux]
    split
    · split
      · exact ih _ (by simp)
      · intro w hw
        rcases List.mem_cons.mp hw with rfl | hw
        · intro d hd; exact hc d (List.mem_reverse.mp hd)
        · exact ih _ (by simp) w hw
    · rename_i h
      apply ih
      intro d hd
      rcases List.mem_cons.mp hd with rfl | hd
      · simpa using h
      · exact hc d hd

theorem splitWsAux_word (w cur : Str) (h : ∀ c ∈ w, isWs c = false) :
    splitWsAux w cur = splitWsAux [] (w.reverse ++ cur) := by
  induction w generalizing cur with
  | nil => rfl
  | cons c cs ih =>
    have e : splitWsAux (c :: cs) cur = splitWsAux cs (c :: cur) := by simp [splitWsAux, h c (by simp)]
    rw [e, ih _ (fun d hd => h d (by simp [hd]))]
    simp

theorem splitWs_join (ws : List Str) (hne : ∀ w ∈ ws, w ≠ []) (hns : ∀ w ∈ ws, ∀ c ∈ w, isWs c = false) :
    splitWs (joinWith [' '] ws) = ws := by
  induction ws with
  | nil => rfl
  | cons w ws ih =>
    have hw : splitWs w = [w] := by
      unfold splitWs
      rw [splitWsAux_word w [] (hns w (by simp))]
      have := hne w (by simp)
      simp [splitWsAux, this]
    cases ws with
    | nil => simpa [joinWith] using hw
    | cons v vs =>
      have : joinWith [' '] (w :: v :: vs) = w ++ ' ' :: joinWith [' '] (v :: vs) := by simp [joinWith]
      rw [this, splitWs_append_ws _ _ _ (by decide), hw,
        ih (fun u hu => hne u (by simp [hu])) (fun u hu => hns u (by simp [hu]))]
      rfl

/-- What is assumed about the case mapping of single characters (satisfied by Unicode lower-casing): blanks
are kept, a visible character becomes a non-empty string of visible characters that are in lower case. -/
structure CaseMap (lower : Char → Str) : Prop where
  space : lower ' ' = [' ']
  visible : ∀ c, isWs c = false → lower c ≠ [] ∧ ∀ d ∈ lower c, isWs d = false ∧ lower d = [d]

theorem flatMap_join (lower : Char → Str) (h : CaseMap lower) (ws : List Str) :
    (joinWith [' '] ws).flatMap lower = joinWith [' '] (ws.map (List.flatMap lower)) := by
  induction ws with
  | nil => rfl
  | cons w ws ih =>
    cases ws with
    | nil => simp [joinWith]
    | cons v vs =>
      simp only [joinWith, List.flatMap_append, List.map_cons] at ih ⊢
      rw [ih]
      simp [h.space]

theorem lower_word (lower : Char → Str) (h : CaseMap lower) (w : Str) (hw : ∀ c ∈ w, isWs c = false) :
    (w.flatMap lower).flatMap lower = w.flatMap lower := by
  induction w with
  | nil => rfl
  | cons c cs ih =>
    simp only [List.flatMap_cons, List.flatMap_append]
    rw [ih (fun d hd => hw d (by simp [hd]))]
    congr 1
    have := (h.visible c (hw c (by simp))).2
    generalize lower c = l at this
    induction l with
    | nil => rfl
    | cons d ds ihd =>
      simp only [List.flatMap_cons, (this d (by simp)).2]
      rw [ihd (fun e he => this e (by simp [he]))]
      rfl

theorem normal_words (lower : Char → Str) (h : CaseMap lower) (s : Str) :
    normalizeRefnameWith lower s = joinWith [' '] ((splitWs s).map (List.flatMap lower)) ∧
    (∀ w ∈ (splitWs s).map (List.flatMap lower), w ≠ []) ∧
    (∀ w ∈ (splitWs s).map (List.flatMap lower), ∀ c ∈ w, isWs c = false) := by
  refine ⟨flatMap_join lower h _, ?_, ?_⟩
  · intro w hw
    obtain ⟨v, hv, rfl⟩ := List.mem_map.mp hw
    have h1 := splitWsAux_nonempty s [] v hv
    have h2 := splitWsAux_no_ws s [] (by simp) v hv
    cases v with
    | nil => exact absurd rfl h1
    | cons c cs =>
      simp only [List.flatMap_cons]
      intro e
      exact (h.visible c (h2 c (by simp))).1 (List.append_eq_nil_iff.mp e).1
  · intro w hw c hc
    obtain ⟨v, hv, rfl⟩ := List.mem_map.mp hw
    have h2 := splitWsAux_no_ws s [] (by simp) v hv
    obtain ⟨d, hd, hcd⟩ := List.mem_flatMap.mp hc
    exact ((h.visible d (h2 d hd)).2 c hcd).1

theorem joinWith_ends (ws : List Str) (hne : ∀ w ∈ ws, w ≠ []) (hns : ∀ w ∈ ws, ∀ c ∈ w, isWs c = false) :
    (∀ c, (joinWith [' '] ws).head? = some c → isWs c = false) ∧
    (∀ c, (joinWith [' '] ws).getLast? = some c → isWs c = false) ∧
    (∀ a b c d, joinWith [' '] ws = a ++ c :: d :: b → isWs c = true → isWs d = true → False) ∧
    (∀ c ∈ joinWith [' '] ws, isWs c = true → c = ' ') := by
  induction ws with
  | nil => simp [joinWith]
  | cons w ws ih =>
    have hw1 := hne w (by simp)
    have hw2 := hns w (by simp)
    obtain ⟨i1, i2, i3, i4⟩ := ih (fun u hu => hne u (by simp [hu])) (fun u hu => hns u (by simp [hu]))
    cases ws with
    | nil =>
      simp only [joinWith]
      refine ⟨fun c hc => hw2 c (List.mem_of_mem_head? (by simp [hc])),
        fun c hc => hw2 c (List.mem_of_getLast? hc), ?_, ?_⟩
      · intro a b c d e hc _
        have : c ∈ w := by rw [e]; simp
        rw [hw2 c this] at hc; exact absurd hc (by simp)
      · intro c hc hs; rw [hw2 c hc] at hs; exact absurd hs (by simp)
    | cons v vs =>
      have e : joinWith [' '] (w :: v :: vs) = w ++ ' ' :: joinWith [' '] (v :: vs) := by simp [joinWith]
      have hne' : joinWith [' '] (v :: vs) ≠ [] := by
        have hv := hne v (by simp)
        cases vs <;> simp [joinWith, hv]
      rw [e]
      refine ⟨?_, ?_, ?_, ?_⟩
      · intro c hc
        cases w with
        | nil => exact absurd rfl hw1
        | cons x xs => simp only [List.cons_append, List.head?_cons, Option.some.injEq] at hc; subst hc; exact hw2 _ (by simp)
      · intro c hc
        apply i2
        rw [List.getLast?_append, List.getLast?_cons] at hc
        rw [List.getLast?_eq_some_getLast hne'] at hc ⊢
        simpa using hc
      · intro a b c d he hc hd
        rw [List.append_eq_append_iff] at he
        rcases he with ⟨a', ha, hb⟩ | ⟨c', ha, hb⟩
        · cases a' with
          | nil =>
            simp only [List.nil_append, List.cons.injEq] at hb
            obtain ⟨_, hb⟩ := hb
            have := i1 d (by rw [hb]; rfl)
            rw [this] at hd; exact absurd hd (by simp)
          | cons x xs =>
            simp only [List.cons_append, List.cons.injEq] at hb
            exact i3 xs b c d hb.2 hc hd
        · cases c' with
          | nil =>
            simp only [List.nil_append, List.cons.injEq] at hb
            obtain ⟨_, hb⟩ := hb
            have := i1 d (by rw [← hb]; rfl)
            rw [this] at hd; exact absurd hd (by simp)
          | cons x xs =>
            simp only [List.cons_append, List.cons.injEq] at hb
            have : c ∈ w := by rw [ha, hb.1]; simp
            rw [hw2 c this] at hc; exact absurd hc (by simp)
      · intro c hc hs
        rcases List.mem_append.mp hc with hc | hc
        · rw [hw2 c hc] at hs; exact absurd hs (by simp)
        · rcases List.mem_cons.mp hc with rfl | hc
          · rfl
          · exact i4 c hc hs

/-- Two names are the same name: they can be turned into each other by changing letter case, replacing one
blank character by another, doubling a blank, or adding a blank at either end. -/
inductive SameName (lower : Char → Str) : Str → Str → Prop where
  | refl (a) : SameName lower a a
  | symm {a b} : SameName lower a b → SameName lower b a
  | trans {a b c} : SameName lower a b → SameName lower b c → SameName lower a c
  | case (a b : Str) (c d : Char) : isWs c = false → isWs d = false → lower c = lower d →
      SameName lower (a ++ c :: b) (a ++ d :: b)
  | blank (a b : Str) (v w : Char) : isWs v = true → isWs w = true → SameName lower (a ++ v :: b) (a ++ w :: b)
  | double (a b : Str) (v w : Char) : isWs v = true → isWs w = true →
      SameName lower (a ++ v :: b) (a ++ v :: w :: b)
  | front (a : Str) (v : Char) : isWs v = true → SameName lower a (v :: a)
  | back (a : Str) (v : Char) : isWs v = true → SameName lower a (a ++ [v])

theorem splitWsAux_case (lower : Char → Str) (a b : Str) (c d : Char) (hc : isWs c = false) (hd : isWs d = false)
    (hcd : lower c = lower d) : ∀ cur cur' : Str, cur.map lower = cur'.map lower →
    (splitWsAux (a ++ c :: b) cur).map (List.map lower) = (splitWsAux (a ++ d :: b) cur').map (List.map lower) := by
  have same : ∀ (s cur cur' : Str), cur.map lower = cur'.map lower →
      (splitWsAux s cur).map (List.map lower) = (splitWsAux s cur').map (List.map lower) := by
    intro s
    induction s with
    | nil =>
      intro cur cur' h
      have he : cur.isEmpty = cur'.isEmpty := by
        cases cur <;> cases cur' <;> simp_all
      simp only [splitWsAux, he]
      split
      · rfl
      · simp [List.map_reverse, h]
    | cons x xs ih =>
      intro cur cur' h
      have he : cur.isEmpty = cur'.isEmpty := by
        cases cur <;> cases cur' <;> simp_all
      simp only [splitWsAux, he]
      split
      · split
        · rfl
        · simp [List.map_reverse, h]
      · exact ih _ _ (by simp [h])
  induction a with
  | nil =>
    intro cur cur' h
    simp only [List.nil_append, splitWsAux, hc, hd, Bool.false_eq_true, if_false]
    exact same _ _ _ (by simp [h, hcd])
  | cons x xs ih =>
    intro cur cur' h
    have he : cur.isEmpty = cur'.isEmpty := by
      cases cur <;> cases cur' <;> simp_all
    simp only [List.cons_append, splitWsAux, he]
    split
    · split
      · exact ih _ _ rfl
      · simp [List.map_reverse, h, ih [] [] rfl]
    · exact ih _ _ (by simp [h])

/-! ## The properties -/

/-- **C05a.** Normalising a reference name is idempotent. -/
theorem C05_idempotent (lower : Char → Str) (h : CaseMap lower) (s : Str) :
    normalizeRefnameWith lower (normalizeRefnameWith lower s) = normalizeRefnameWith lower s := by
  obtain ⟨h1, h2, h3⟩ := normal_words lower h s
  have h4 := (normal_words lower h (normalizeRefnameWith lower s)).1
  rw [h4, h1, splitWs_join _ h2 h3]
  congr 1
  rw [List.map_map]
  apply List.map_congr_left
  intro w hw
  exact lower_word lower h w (splitWsAux_no_ws s [] (by simp) w hw)

/-- **C05b.** Names that differ only in letter case and in the amount or kind of blanks normalise to the same
name. -/
theorem C05_same_name (lower : Char → Str) (h : CaseMap lower) (a b : Str) (hab : SameName lower a b) :
    normalizeRefnameWith lower a = normalizeRefnameWith lower b := by
  have key : (splitWs a).map (List.map lower) = (splitWs b).map (List.map lower) := by
    induction hab with
    | refl => rfl
    | symm _ ih => exact ih.symm
    | trans _ _ ih1 ih2 => exact ih1.trans ih2
    | case a b c d hc hd hcd => exact splitWsAux_case lower a b c d hc hd hcd [] [] rfl
    | blank a b v w hv hw => rw [splitWs_append_ws _ _ _ hv, splitWs_append_ws _ _ _ hw]
    | double a b v w hv hw =>
      have : splitWs (w :: b) = splitWs b := splitWs_append_ws [] b w hw
      rw [splitWs_append_ws _ _ _ hv, splitWs_append_ws _ _ _ hv, this]
    | front a v hv =>
      have : splitWs (v :: a) = splitWs a := splitWs_append_ws [] a v hv
      rw [this]
    | back a v hv =>
      rw [splitWs_append_ws _ _ _ hv]
      simp [splitWs, splitWsAux]
  rw [(normal_words lower h a).1, (normal_words lower h b).1]
  have e : ∀ s : Str, s.flatMap lower = (s.map lower).flatten := fun s => List.flatMap_def
  have e2 : ∀ l : List Str, l.map (List.flatMap lower) = (l.map (List.map lower)).map List.flatten := by
    intro l; rw [List.map_map]; exact List.map_congr_left (fun w _ => e w)
  rw [e2, e2, key]

/-- **C05c.** A normalised name has no leading, trailing or doubled blank, and its only blanks are spaces. -/
theorem C05_canonical (lower : Char → Str) (h : CaseMap lower) (s : Str) :
    (∀ c, (normalizeRefnameWith lower s).head? = some c → isWs c = false) ∧
    (∀ c, (normalizeRefnameWith lower s).getLast? = some c → isWs c = false) ∧
    (∀ a b c d, normalizeRefnameWith lower s = a ++ c :: d :: b → ¬(isWs c = true ∧ isWs d = true)) ∧
    (∀ c ∈ normalizeRefnameWith lower s, isWs c = true → c = ' ') := by
  obtain ⟨h1, h2, h3⟩ := normal_words lower h s
  rw [h1]
  obtain ⟨j1, j2, j3, j4⟩ := joinWith_ends _ h2 h3
  exact ⟨j1, j2, fun a b c d e hcd => j3 a b c d e hcd.1 hcd.2, j4⟩

/-- The assumptions on the case mapping are met by ASCII case folding. -/
theorem caseMap_ascii : CaseMap (fun c => [lowerAscii c]) := by
  constructor
  · decide
  · intro c hc
    refine ⟨by simp, ?_⟩
    intro d hd
    simp only [List.mem_singleton] at hd
    subst hd
    unfold lowerAscii
    split
    · rename_i hr
      have hv : (c.toNat + 32).isValidChar := by left; omega
      have ht : (Char.ofNat (c.toNat + 32)).toNat = c.toNat + 32 := by
        rw [Char.ofNat, dif_pos hv]; rfl
      refine ⟨?_, ?_⟩
      · simp only [isWs, ht, Bool.or_eq_false_iff, Bool.and_eq_false_iff, decide_eq_false_iff_not, beq_eq_false_iff_ne]
        omega
      · rw [if_neg]; rw [ht]; omega
    · rename_i hr; exact ⟨hc, by trivial⟩

example : normalizeRefname (str! "  Some\t\tOld  NAME ") = str! "some old name" := by decide
example : SameName (fun c => [lowerAscii c]) (str! "Ab") (str! "\tab") :=
  .trans (.case [] (str! "b") 'A' 'a' (by decide) (by decide) (by decide)) (.front _ '\t' (by decide))

/-- **C06a.** If a line starts with `n` blanks, stripping `n` columns removes exactly these blanks; prepending
the removed blanks gives the line back. -/
theorem C06_strip_exact (pre rest : Str) (n : Nat) (hn : pre.length = n) (hw : ∀ c ∈ pre, isWs c = true) :
    stripIndent (pre ++ rest) n = .ok (some rest) := by
  have loop : ∀ (pre : Str) (n : Nat), pre.length = n → (∀ c ∈ pre, isWs c = true) →
      stripIndentLoop n (pre ++ rest) = .ok (some rest) := by
    intro pre
    induction pre with
    | nil => intro n hn _; simp at hn; subst hn; rfl
    | cons c cs ih =>
      intro n hn hw
      cases n with
      | zero => simp at hn
      | succ n =>
        simp only [List.cons_append, stripIndentLoop, hw c (by simp), if_true]
        exact ih n (by simpa using hn) (fun d hd => hw d (by simp [hd]))
  unfold stripIndent
  split
  · rename_i h
    simp only [List.isEmpty_iff, List.append_eq_nil_iff] at h
    rw [h.1, h.2]; rfl
  · exact loop pre n hn hw

/-- **C06b.** Whenever stripping succeeds on a non-empty line, what was removed is exactly `n` blanks. -/
theorem C06_strip_sound (line out : Str) (n : Nat) (hne : line ≠ []) (h : stripIndent line n = .ok (some out)) :
    ∃ pre, line = pre ++ out ∧ pre.length = n ∧ ∀ c ∈ pre, isWs c = true := by
  have loop : ∀ (n : Nat) (s : Str), stripIndentLoop n s = .ok (some out) →
      ∃ pre, s = pre ++ out ∧ pre.length = n ∧ ∀ c ∈ pre, isWs c = true := by
    intro n
    induction n with
    | zero => intro s h; simp [stripIndentLoop] at h; exact ⟨[], by simp [h]⟩
    | succ n ih =>
      intro s h
      cases s with
      | nil => simp [stripIndentLoop] at h
      | cons c cs =>
        simp only [stripIndentLoop] at h
        split at h
        · rename_i hc
          obtain ⟨pre, e, hl, hw⟩ := ih cs h
          refine ⟨c :: pre, by simp [e], by simp [hl], ?_⟩
          intro d hd
          rcases List.mem_cons.mp hd with rfl | hd
          · exact hc
          · exact hw d hd
        · simp at h
  have he : line.isEmpty = false := by cases line <;> simp_all
  simp only [stripIndent, he] at h
  exact loop n line h

/-- **C06c.** Stripping is refused, without a panic, when a visible character stands within the first `n`
columns; a non-empty all-blank line shorter than `n` makes the program panic (finding). -/
theorem C06_strip_refuse (pre rest : Str) (c : Char) (n : Nat) (hn : pre.length < n)
    (hw : ∀ c ∈ pre, isWs c = true) (hc : isWs c = false) : stripIndent (pre ++ c :: rest) n = .ok none := by
  have loop : ∀ (pre : Str) (n : Nat), pre.length < n → (∀ c ∈ pre, isWs c = true) →
      stripIndentLoop n (pre ++ c :: rest) = .ok none := by
    intro pre
    induction pre with
    | nil =>
      intro n hn _
      cases n with
      | zero => simp at hn
      | succ n => simp [stripIndentLoop, hc]
    | cons d ds ih =>
      intro n hn hw
      cases n with
      | zero => simp at hn
      | succ n =>
        simp only [List.cons_append, stripIndentLoop, hw d (by simp), if_true]
        exact ih n (by simpa using hn) (fun d hd => hw d (by simp [hd]))
  unfold stripIndent
  split
  · rename_i h; simp at h
  · exact loop pre n hn hw

example : stripIndent (str! "    code") 2 = .ok (some (str! "  code")) := by decide
/-- Finding: a blank line shorter than the requested amount panics. -/
theorem C06_short_blank_line_panics : stripIndent (str! " ") 2 = .error (.unwrapNone "common.rs strip_indent") := by
  decide

end Rustla
