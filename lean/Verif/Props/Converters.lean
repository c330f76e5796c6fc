import Verif.Model.Converters
import Verif.Spec.Numerals
import Verif.Lemmas.Regex
import Verif.Lemmas.Strings
/-! # C10-C12: enumerators -/
namespace Rustla

/-! ## C10 -/

/-- The k-th upper or lower case ASCII letter, counted from 0. -/
def upperLetter (k : Nat) : Char := Char.ofNat (65 + k)
/-- The k-th lower case ASCII letter, counted from 0. -/
def lowerLetter (k : Nat) : Char := Char.ofNat (97 + k)

/-- **C10** A string is accepted as an alphabetic enumerator iff it is a single ASCII letter, and then it
denotes the position of the letter in the alphabet, whatever its case. -/
theorem C10_alpha (s : Str) (n : Nat) :
    alphaToUsize s = some n ↔ ∃ k, k < 26 ∧ n = k + 1 ∧ (s = [upperLetter k] ∨ s = [lowerLetter k]) := by
  have htab : ∀ e ∈ alphaTable, ∃ k, k < 26 ∧ e = (upperLetter k, lowerLetter k, k + 1) := by
    have : alphaTable = (List.range 26).map fun k => (upperLetter k, lowerLetter k, k + 1) := by decide
    rw [this]; intro e he
    obtain ⟨k, hk, rfl⟩ := List.mem_map.mp he
    exact ⟨k, by simpa using hk, rfl⟩
  constructor
  · intro h
    match s, h with
    | [c], h =>
      simp only [alphaToUsize, Option.map_eq_some_iff] at h
      obtain ⟨e, he, rfl⟩ := h
      obtain ⟨k, hk, rfl⟩ := htab e (List.mem_of_find?_eq_some he)
      have := List.find?_some he
      simp only [Bool.or_eq_true, beq_iff_eq] at this
      exact ⟨k, hk, rfl, by simpa [eq_comm] using this⟩
  · rintro ⟨k, hk, rfl, rfl | rfl⟩
    · revert k; decide
    · revert k; decide

/-- **C10** Different letters of one case denote different numbers. -/
theorem C10_injective (i j : Nat) (hi : i < 26) (hj : j < 26)
    (h : alphaToUsize [upperLetter i] = alphaToUsize [upperLetter j] ∨
      alphaToUsize [lowerLetter i] = alphaToUsize [lowerLetter j]) : i = j := by
  have hu : ∀ k, k < 26 → alphaToUsize [upperLetter k] = some (k + 1) := fun k hk =>
    (C10_alpha _ _).mpr ⟨k, hk, rfl, .inl rfl⟩
  have hl : ∀ k, k < 26 → alphaToUsize [lowerLetter k] = some (k + 1) := fun k hk =>
    (C10_alpha _ _).mpr ⟨k, hk, rfl, .inr rfl⟩
  rcases h with h | h
  · rw [hu i hi, hu j hj] at h; simpa using h
  · rw [hl i hi, hl j hj] at h; simpa using h

example : alphaToUsize (str! "q") = some 17 ∧ alphaToUsize (str! "ab") = none := by decide

/-! ## C11 -/

theorem romanLoop_single {pair token v} {c : Char} {rest : Str} {t : Nat} (ht : token [c] = some t)
    (hp : ∀ d, rest.head? = some d → pair c d = false) (hv : v + t ≤ romanMax) :
    romanLoop pair token v (c :: rest) = romanLoop pair token (v + t) rest := by
  have hv' : ¬ v + t > romanMax := Nat.not_lt.mpr hv
  cases rest with
  | nil => simp [romanLoop, ht, hv']
  | cons d rest => simp [romanLoop, hp d rfl, ht, hv']

theorem romanLoop_pair {pair token v} {c d : Char} {rest : Str} {t : Nat} (hp : pair c d = true)
    (ht : token [c, d] = some t) (hv : v + t ≤ romanMax) :
    romanLoop pair token v (c :: d :: rest) = romanLoop pair token (v + t) rest := by
  have hv' : ¬ v + t > romanMax := Nat.not_lt.mpr hv
  simp [romanLoop, hp, ht, hv']

/-- Reading one decimal digit. -/
theorem romanLoop_digit {pair token} (one five ten : Char) (u : Nat)
    (h1 : token [one] = some u) (h5 : token [five] = some (5 * u)) (h4 : token [one, five] = some (4 * u))
    (h9 : token [one, ten] = some (9 * u)) (p5 : pair one five = true) (p10 : pair one ten = true)
    (p1 : pair one one = false) (q1 : ∀ d, pair five d = false)
    (k : Nat) (hk : k < 10) (v : Nat) (rest : Str)
    (hr : ∀ d, rest.head? = some d → pair one d = false) (hv : v + k * u ≤ romanMax) :
    romanLoop pair token v (romanDigit one five ten k ++ rest) = romanLoop pair token (v + k * u) rest := by
  have hor : ∀ d, (one :: rest).head? = some d → pair one d = false := by intro d h; cases h; exact p1
  have hoor : ∀ d, (one :: one :: rest).head? = some d → pair one d = false := by intro d h; cases h; exact p1
  match k, hk with
  | 0, _ => simp [romanDigit]
  | 1, _ => simp only [romanDigit, List.cons_append, List.nil_append]; rw [romanLoop_single h1 hr (by omega)]; simp
  | 2, _ =>
    simp only [romanDigit, List.cons_append, List.nil_append]
    rw [romanLoop_single h1 hor (by omega), romanLoop_single h1 hr (by omega)]; congr 1; omega
  | 3, _ =>
    simp only [romanDigit, List.cons_append, List.nil_append]
    rw [romanLoop_single h1 hoor (by omega), romanLoop_single h1 hor (by omega), romanLoop_single h1 hr (by omega)]
    congr 1; omega
  | 4, _ => simp only [romanDigit, List.cons_append, List.nil_append]; rw [romanLoop_pair p5 h4 (by omega)]
  | 5, _ => simp only [romanDigit, List.cons_append, List.nil_append]; rw [romanLoop_single h5 (fun d _ => q1 d) (by omega)]
  | 6, _ =>
    simp only [romanDigit, List.cons_append, List.nil_append]
    rw [romanLoop_single h5 (fun d _ => q1 d) (by omega), romanLoop_single h1 hr (by omega)]; congr 1; omega
  | 7, _ =>
    simp only [romanDigit, List.cons_append, List.nil_append]
    rw [romanLoop_single h5 (fun d _ => q1 d) (by omega), romanLoop_single h1 hor (by omega),
      romanLoop_single h1 hr (by omega)]; congr 1; omega
  | 8, _ =>
    simp only [romanDigit, List.cons_append, List.nil_append]
    rw [romanLoop_single h5 (fun d _ => q1 d) (by omega), romanLoop_single h1 hoor (by omega),
      romanLoop_single h1 hor (by omega), romanLoop_single h1 hr (by omega)]; congr 1; omega
  | 9, _ => simp only [romanDigit, List.cons_append, List.nil_append]; rw [romanLoop_pair p10 h9 (by omega)]

theorem romanLoop_thousands (k v : Nat) (rest : Str) (hv : v + 1000 * k ≤ romanMax) :
    romanLoop upperRomanPair upperRomanToken v (List.replicate k 'M' ++ rest) =
      romanLoop upperRomanPair upperRomanToken (v + 1000 * k) rest := by
  induction k generalizing v with
  | zero => simp
  | succ k ih =>
    simp only [List.replicate_succ, List.cons_append]
    have h0 : v + 1000 ≤ v + 1000 * (k + 1) :=
      Nat.add_le_add_left (Nat.le_mul_of_pos_right 1000 (Nat.succ_pos k)) v
    have h1 : v + 1000 ≤ romanMax := Nat.le_trans h0 hv
    have ht : upperRomanToken ['M'] = some 1000 := rfl
    rw [romanLoop_single ht (fun d _ => by simp [upperRomanPair]) h1, ih _ (by rw [Nat.mul_succ] at hv; rw [Nat.add_assoc, Nat.add_comm 1000]; exact hv)]
    congr 1; omega

theorem romanDigit_head (one five ten : Char) (k : Nat) (c : Char)
    (h : (romanDigit one five ten k).head? = some c) : c = one ∨ c = five := by
  unfold romanDigit at h
  split at h <;> simp_all

/-- **C11** Every canonical Roman numeral up to 4999 is read as the number it denotes. -/
theorem C11_upper (n : Nat) (h : n ≤ 4999) : upperRomanToUsize (romanNumeral n) = some n := by
  unfold upperRomanToUsize romanNumeral
  simp only [List.append_assoc]
  rw [romanLoop_thousands _ _ _ (by unfold romanMax; omega)]
  rw [romanLoop_digit 'C' 'D' 'M' 100 rfl rfl rfl rfl rfl rfl rfl (fun d => by simp [upperRomanPair]) _ (by omega) _ _ ?_
    (by unfold romanMax; omega)]
  · rw [romanLoop_digit 'X' 'L' 'C' 10 rfl rfl rfl rfl rfl rfl rfl (fun d => by simp [upperRomanPair]) _ (by omega) _ _ ?_
      (by unfold romanMax; omega)]
    · have := romanLoop_digit (pair := upperRomanPair) (token := upperRomanToken) 'I' 'V' 'X' 1 rfl rfl rfl rfl rfl rfl rfl
        (fun d => by simp [upperRomanPair]) (n % 10) (by omega)
        (0 + 1000 * (n / 1000) + n / 100 % 10 * 100 + n / 10 % 10 * 10) [] (by simp) (by unfold romanMax; omega)
      rw [List.append_nil] at this
      rw [this]
      simp only [romanLoop]
      congr 1; omega
    · intro d hd
      rcases romanDigit_head _ _ _ _ _ hd with rfl | rfl <;> rfl
  · intro d hd
    rw [List.head?_append] at hd
    cases hx : (romanDigit 'X' 'L' 'C' (n / 10 % 10)).head? with
    | some e =>
      rw [hx] at hd; cases hd
      rcases romanDigit_head _ _ _ _ _ hx with rfl | rfl <;> rfl
    | none =>
      rw [hx] at hd
      rcases romanDigit_head _ _ _ _ _ hd with rfl | rfl <;> rfl

/-- A character that occurs in upper case Roman numerals. -/
def isRoman (c : Char) : Bool := clsUpperRoman c

theorem isRoman_iff (c : Char) : isRoman c = true ↔
    c = 'I' ∨ c = 'V' ∨ c = 'X' ∨ c = 'L' ∨ c = 'C' ∨ c = 'D' ∨ c = 'M' := by
  simp [isRoman, clsUpperRoman, or_assoc]

theorem romanLoop_lower (s : Str) (hs : ∀ c ∈ s, isRoman c = true) (v : Nat) :
    romanLoop lowerRomanPair lowerRomanToken v (romanLower s) = romanLoop upperRomanPair upperRomanToken v s := by
  have tok1 : ∀ c, isRoman c = true → lowerRomanToken [romanLower.lowerRomanChar c] = upperRomanToken [c] := by
    intro c hc
    rcases (isRoman_iff c).mp hc with h | h | h | h | h | h | h <;> subst h <;> rfl
  have tok2 : ∀ c d, isRoman c = true → isRoman d = true →
      lowerRomanToken [romanLower.lowerRomanChar c, romanLower.lowerRomanChar d] = upperRomanToken [c, d] := by
    intro c d hc hd
    rcases (isRoman_iff c).mp hc with h | h | h | h | h | h | h <;> subst h <;>
      (rcases (isRoman_iff d).mp hd with h | h | h | h | h | h | h <;> subst h <;> rfl)
  have pr : ∀ c d, isRoman c = true → isRoman d = true →
      lowerRomanPair (romanLower.lowerRomanChar c) (romanLower.lowerRomanChar d) = upperRomanPair c d := by
    intro c d hc hd
    rcases (isRoman_iff c).mp hc with h | h | h | h | h | h | h <;> subst h <;>
      (rcases (isRoman_iff d).mp hd with h | h | h | h | h | h | h <;> subst h <;> rfl)
  induction v, s using romanLoop.induct upperRomanPair upperRomanToken with
  | case1 v => simp [romanLower, romanLoop]
  | case2 v c => simp [romanLower, romanLoop, tok1 c (hs c (by simp)), *]
  | case3 v c t => simp [romanLower, romanLoop, tok1 c (hs c (by simp)), *]
  | case4 v c t => simp [romanLower, romanLoop, tok1 c (hs c (by simp)), *]
  | case5 v c d rest hp ht =>
    simp [romanLower, romanLoop, tok2 c d (hs c (by simp)) (hs d (by simp)), pr c d (hs c (by simp)) (hs d (by simp)), *]
  | case6 v c d rest hp t ht =>
    simp [romanLower, romanLoop, tok2 c d (hs c (by simp)) (hs d (by simp)), pr c d (hs c (by simp)) (hs d (by simp)), *]
  | case7 v c d rest hp t ht hle ih =>
    have := ih (fun x hx => hs x (by simp [hx]))
    simp only [romanLower] at this
    simp [romanLower, romanLoop, tok2 c d (hs c (by simp)) (hs d (by simp)), pr c d (hs c (by simp)) (hs d (by simp)),
      hp, ht, hle, this]
  | case8 v c d rest hp ht =>
    simp [romanLower, romanLoop, tok1 c (hs c (by simp)), pr c d (hs c (by simp)) (hs d (by simp)), *]
  | case9 v c d rest hp t ht =>
    simp [romanLower, romanLoop, tok1 c (hs c (by simp)), pr c d (hs c (by simp)) (hs d (by simp)), *]
  | case10 v c d rest hp t ht hle ih =>
    have := ih (fun x hx => hs x (by simp at hx ⊢; exact .inr hx))
    simp only [romanLower, List.map_cons] at this
    simp [romanLower, romanLoop, tok1 c (hs c (by simp)), pr c d (hs c (by simp)) (hs d (by simp)), hp, ht, hle, this]

/-- **C11** The two readers agree: reading the lower case spelling gives the value of the upper case one. -/
theorem C11_case (s : Str) (hs : ∀ c ∈ s, isRoman c = true) :
    lowerRomanToUsize (romanLower s) = upperRomanToUsize s := romanLoop_lower s hs 0

theorem romanNumeral_chars (n : Nat) : ∀ c ∈ romanNumeral n, isRoman c = true := by
  have hd : ∀ one five ten k, isRoman one = true → isRoman five = true → isRoman ten = true →
      ∀ c ∈ romanDigit one five ten k, isRoman c = true := by
    intro one five ten k h1 h5 h10 c hc
    unfold romanDigit at hc
    split at hc <;> simp at hc <;> rcases hc with hc | hc <;> simp_all
  intro c hc
  simp only [romanNumeral, List.mem_append, List.mem_replicate] at hc
  rcases hc with ((⟨_, rfl⟩ | hc) | hc) | hc
  · rfl
  · exact hd _ _ _ _ rfl rfl rfl c hc
  · exact hd _ _ _ _ rfl rfl rfl c hc
  · exact hd _ _ _ _ rfl rfl rfl c hc

/-- **C11** for lower case numerals. -/
theorem C11_lower (n : Nat) (h : n ≤ 4999) : lowerRomanToUsize (romanLower (romanNumeral n)) = some n := by
  rw [C11_case _ (romanNumeral_chars n), C11_upper n h]

/-- **C11** (partial: rejection) A string with a character that occurs in no Roman numeral is rejected, and so
is every value above 4999.  Missing: malformed sequences of Roman digits are *not* rejected, see
`C11_accepts_malformed`. -/
theorem C11_rejects_partial (s : Str) (n : Nat) (h : upperRomanToUsize s = some n) :
    (∀ c ∈ s, isRoman c = true) ∧ n ≤ 4999 := by
  have key : ∀ v, v ≤ romanMax → romanLoop upperRomanPair upperRomanToken v s = some n →
      (∀ c ∈ s, isRoman c = true) ∧ n ≤ romanMax := by
    have tok1 : ∀ c t, upperRomanToken [c] = some t → isRoman c = true := by
      intro c t h; unfold upperRomanToken at h
      split at h <;> first | (rename_i he; cases he; rfl) | simp_all
    have tok2 : ∀ c d t, upperRomanToken [c, d] = some t → isRoman c = true ∧ isRoman d = true := by
      intro c d t h; unfold upperRomanToken at h
      split at h <;> first | (rename_i he; cases he; exact ⟨rfl, rfl⟩) | simp_all
    intro v
    clear h
    induction v, s using romanLoop.induct upperRomanPair upperRomanToken with
    | case1 v => intro hv h; simp [romanLoop] at h; subst h; simp [hv]
    | case2 v c ht => intro hv h; simp [romanLoop, ht] at h
    | case3 v c t ht hgt => intro hv h; simp [romanLoop, ht, hgt] at h
    | case4 v c t ht hle =>
      intro hv h; simp [romanLoop, ht, hle] at h
      exact ⟨by simpa using tok1 c t ht, by omega⟩
    | case5 v c d rest hp ht => intro hv h; simp [romanLoop, hp, ht] at h
    | case6 v c d rest hp t ht hgt => intro hv h; simp [romanLoop, hp, ht, hgt] at h
    | case7 v c d rest hp t ht hle ih =>
      intro hv h; simp [romanLoop, hp, ht, hle] at h
      obtain ⟨a, b⟩ := ih (by omega) h
      have := tok2 c d t ht
      exact ⟨by simp [this.1, this.2]; exact a, b⟩
    | case8 v c d rest hp ht => intro hv h; simp [romanLoop, hp, ht] at h
    | case9 v c d rest hp t ht hgt => intro hv h; simp [romanLoop, hp, ht, hgt] at h
    | case10 v c d rest hp t ht hle ih =>
      intro hv h; simp [romanLoop, hp, ht, hle] at h
      obtain ⟨a, b⟩ := ih (by omega) h
      have := tok1 c t ht
      exact ⟨by simpa [this] using a, b⟩
  exact key 0 (by simp [romanMax]) h

/-- **C11** (violated) Malformed sequences of Roman digits are accepted: any number of repeated `I`s, and even
the empty string, is read as a number. -/
theorem C11_accepts_malformed (k : Nat) (h : k ≤ 4999) : upperRomanToUsize (List.replicate k 'I') = some k := by
  have : ∀ v, v + k ≤ romanMax →
      romanLoop upperRomanPair upperRomanToken v (List.replicate k 'I') = some (v + k) := by
    clear h
    induction k with
    | zero => intro v _; simp [romanLoop]
    | succ k ih =>
      intro v hv
      rw [List.replicate_succ, romanLoop_single (t := 1) rfl ?_ (by omega), ih _ (by omega)]
      · congr 1; omega
      · intro d hd
        cases k with
        | zero => simp at hd
        | succ k => simp [List.replicate_succ] at hd; subst hd; rfl
  have := this 0 (by unfold romanMax; omega)
  simpa [upperRomanToUsize] using this

example : romanNumeral 1994 = str! "MCMXCIV" := by decide
example : upperRomanToUsize (romanNumeral 3888) = some 3888 := C11_upper _ (by omega)

/-! ## Matching digits (used for C12) -/

theorem List.flatMap_all_nil {α β} (l : List α) (f : α → List β) (h : ∀ a ∈ l, f a = []) : l.flatMap f = [] := by
  induction l with
  | nil => rfl
  | cons a l ih => simp [h a (by simp), ih (fun b hb => h b (by simp [hb]))]

/-- A greedy class repetition followed by something that cannot start with a member of the class has only
one way to match: the maximal run. -/
theorem run_star_then {p : Char → Bool} {β} (K : Str × Caps → List β) (hK : ∀ c s cs, p c = true → K (c :: s, cs) = [])
    (ds rest : Str) (hds : ∀ c ∈ ds, p c = true) (hr : ∀ c, rest.head? = some c → p c = false) (cs : Caps) :
    ((Re.star true (.cls p)).run (ds ++ rest) cs).flatMap K = K (rest, cs) := by
  rw [run_star_cls]
  have htw : (ds ++ rest).takeWhile p = ds := by
    rw [List.takeWhile_append_of_pos hds]
    cases rest with
    | nil => simp
    | cons c rest => simp [hr c rfl]
  rw [htw, List.range_succ, List.reverse_append]
  simp only [List.reverse_cons, List.reverse_nil, List.nil_append, List.singleton_append, List.map_cons,
    List.flatMap_cons, List.drop_left]
  rw [List.flatMap_all_nil, List.append_nil]
  intro a ha
  obtain ⟨k, hk, rfl⟩ := List.mem_map.mp ha
  have hk' : k < ds.length := by simpa using hk
  have : (ds ++ rest).drop k = ds[k] :: (ds ++ rest).drop (k + 1) := by
    rw [List.drop_eq_getElem_cons (by simp; omega)]
    simp [List.getElem_append_left hk']
  rw [this]
  exact hK _ _ _ (hds _ (List.getElem_mem hk'))

theorem run_plus_then {p : Char → Bool} {β} (K : Str × Caps → List β) (hK : ∀ c s cs, p c = true → K (c :: s, cs) = [])
    (ds rest : Str) (hne : ds ≠ []) (hds : ∀ c ∈ ds, p c = true) (hr : ∀ c, rest.head? = some c → p c = false) (cs : Caps) :
    ((Re.plus true (.cls p)).run (ds ++ rest) cs).flatMap K = K (rest, cs) := by
  cases ds with
  | nil => exact absurd rfl hne
  | cons d ds =>
    simp only [Re.plus, Re.run, List.cons_append, hds d (by simp), if_true, List.flatMap_cons, List.flatMap_nil,
      List.append_nil]
    exact run_star_then K hK ds rest (fun c hc => hds c (by simp [hc])) hr cs

end Rustla
