import Verif.Lemmas.First
import Verif.Lemmas.Rel
import Verif.Spec.Marks
import Verif.Props.Enumerated
/-! # The counters of items -/
namespace Rustla
open Spec

/-- The characters that counters of a kind are made of. -/
def countClass (auto : Bool) : EnumKind → Char → Bool
  | k, x => if auto then x == '#' else match k with
    | .Arabic => clsDigit x
    | .LowerRoman => clsLowerRoman x
    | .UpperRoman => clsUpperRoman x
    | .LowerAlpha => clsLower x && !clsLowerRoman x
    | .UpperAlpha => clsUpper x && !clsUpperRoman x
    | .Automatic => x == '#'

theorem romanNumeral_ne_nil {n : Nat} (h : 0 < n ∧ n ≤ 4999) : romanNumeral n ≠ [] := by
  intro e
  have := C11_upper n h.2
  rw [e] at this
  have h0 : upperRomanToUsize [] = some 0 := by simp [upperRomanToUsize, romanLoop]
  rw [h0] at this
  injection this; omega

theorem lowerRoman_chars {s : Str} (hs : ∀ c ∈ s, isRoman c = true) : ∀ c ∈ romanLower s, clsLowerRoman c = true := by
  intro c hc
  obtain ⟨x, hx, rfl⟩ := List.mem_map.mp hc
  rcases (isRoman_iff x).mp (hs x hx) with h | h | h | h | h | h | h <;> subst h <;> rfl

/-- A counter has at least one character, all of the right class. -/
theorem counter_text {c : Counter} (h : c.Ok) : c.text ≠ [] ∧ ∀ x ∈ c.text, countClass c.auto c.kind x = true := by
  obtain ⟨k, n, a⟩ := c
  cases a with
  | true => exact ⟨by simp [Counter.text], by simp [Counter.text, countClass]⟩
  | false =>
    have h := h rfl
    cases k with
    | Arabic => exact ⟨decimal_ne_nil n, decimal_clsDigit n⟩
    | LowerAlpha =>
      have all : ∀ n ∈ [1, 2, 5, 6, 7, 8, 10, 11, 14, 15, 16, 17, 18, 19, 20, 21, 23, 25, 26], (Counter.text ⟨.LowerAlpha, n, false⟩ ≠ [] ∧ ∀ x ∈ Counter.text ⟨.LowerAlpha, n, false⟩, countClass false .LowerAlpha x = true) := by decide
      exact all n h
    | UpperAlpha =>
      have all : ∀ n ∈ [1, 2, 5, 6, 7, 8, 10, 11, 14, 15, 16, 17, 18, 19, 20, 21, 23, 25, 26], (Counter.text ⟨.UpperAlpha, n, false⟩ ≠ [] ∧ ∀ x ∈ Counter.text ⟨.UpperAlpha, n, false⟩, countClass false .UpperAlpha x = true) := by decide
      exact all n h
    | LowerRoman => exact ⟨by simp only [Counter.text, romanLower]; simpa using romanNumeral_ne_nil h, lowerRoman_chars (romanNumeral_chars n)⟩
    | UpperRoman => exact ⟨romanNumeral_ne_nil h, romanNumeral_chars n⟩
    | Automatic => exact h.elim

/-- Letters in alphabetic counters stand alone. -/
theorem counter_alpha {c : Counter} (h : c.kind = .LowerAlpha ∨ c.kind = .UpperAlpha ∨ c.auto = true) : ∃ x, c.text = [x] := by
  obtain ⟨k, n, a⟩ := c
  cases a with
  | true => exact ⟨'#', rfl⟩
  | false =>
    rcases h with h | h | h
    · simp only at h; subst h; exact ⟨_, rfl⟩
    · simp only at h; subst h; exact ⟨_, rfl⟩
    · cases h

theorem lowerRoman_iff {c : Char} : clsLowerRoman c = true ↔ c = 'i' ∨ c = 'v' ∨ c = 'x' ∨ c = 'l' ∨ c = 'c' ∨ c = 'd' ∨ c = 'm' := by
  simp [clsLowerRoman, or_assoc]

/-- The characters of counters are letters, digits or number signs. -/
theorem countClass_alnum {a : Bool} {k : EnumKind} {x : Char} (h : countClass a k x = true) : x = '#' ∨ x.isAlphanum = true := by
  unfold countClass at h
  cases a with
  | true => left; simpa using h
  | false =>
    cases k with
    | Arabic => right; exact alnum_cls.mp (by simp only [Bool.false_eq_true, if_false] at h; simp [clsAlnum] at h ⊢; simp [clsDigit] at h; tauto)
    | LowerRoman =>
      right
      rcases lowerRoman_iff.mp h with h | h | h | h | h | h | h <;> subst h <;> rfl
    | UpperRoman =>
      right
      rcases (isRoman_iff x).mp h with h | h | h | h | h | h | h <;> subst h <;> rfl
    | LowerAlpha => right; exact alnum_cls.mp (by simp only [Bool.false_eq_true, if_false] at h; simp [clsAlnum] at h ⊢; simp [clsLower] at h; tauto)
    | UpperAlpha => right; exact alnum_cls.mp (by simp only [Bool.false_eq_true, if_false] at h; simp [clsAlnum] at h ⊢; simp [clsUpper] at h; tauto)
    | Automatic => left; simpa using h

/-- The alternatives of the pattern of enumerators. -/
def enumAlts (ga gl gu gla gua gau : Grp) : Re := Re.alts [(.cap ga (Re.plus true (.cls clsDigit))), (.cap gl (Re.plus true (.cls clsLowerRoman))), (.cap
      gu (Re.plus true (.cls clsUpperRoman))), (.cap gla (.cls clsLower)), (.cap
      gua (.cls clsUpper)), (.cap gau (.chr '#'))]

/-- The group of a counter. -/
def countGrp (ga gl gu gla gua gau : Grp) (auto : Bool) (k : EnumKind) : Grp :=
  if auto then gau else match k with
  | .Arabic => ga
  | .LowerRoman => gl
  | .UpperRoman => gu
  | .LowerAlpha => gla
  | .UpperAlpha => gua
  | .Automatic => gau

theorem plus_cap_dead {g : Grp} {p : Char → Bool} {x : Char} {t : Str} {cs : Caps} (h : p x = false) :
    (Re.cap g (Re.plus true (.cls p))).run (x :: t) cs = [] := by
  refine run_cap_dead (run_seq_dead ?_)
  rw [Re.run, if_neg (by simp [h])]

theorem cls_cap_dead {g : Grp} {p : Char → Bool} {x : Char} {t : Str} {cs : Caps} (h : p x = false) :
    (Re.cap g (.cls p)).run (x :: t) cs = [] := by
  refine run_cap_dead ?_
  rw [Re.run, if_neg (by simp [h])]

theorem lower_not_digit {x : Char} (h : clsLower x = true) : clsDigit x = false ∧ clsUpperRoman x = false ∧ clsUpper x = false := by
  have hn : 97 ≤ x.toNat ∧ x.toNat ≤ 122 := by
    simp only [clsLower, Bool.and_eq_true, decide_eq_true_eq, Char.le_def, UInt32.le_iff_toNat_le] at h
    exact h
  have k : ∀ d : Char, d.toNat < 97 → x ≠ d := by rintro d hd rfl; omega
  refine ⟨?_, ?_, ?_⟩
  · simp only [clsDigit, Bool.and_eq_false_iff, decide_eq_false_iff_not, Char.le_def, UInt32.le_iff_toNat_le]
    right; show ¬ (x.toNat ≤ 57); omega
  · simp [clsUpperRoman, k]
  · simp only [clsUpper, Bool.and_eq_false_iff, decide_eq_false_iff_not, Char.le_def, UInt32.le_iff_toNat_le]
    right; show ¬ (x.toNat ≤ 90); omega

theorem upper_not_digit {x : Char} (h : clsUpper x = true) : clsDigit x = false ∧ clsLowerRoman x = false ∧ clsLower x = false := by
  have hn : 65 ≤ x.toNat ∧ x.toNat ≤ 90 := by
    simp only [clsUpper, Bool.and_eq_true, decide_eq_true_eq, Char.le_def, UInt32.le_iff_toNat_le] at h
    exact h
  have k : ∀ d : Char, 90 < d.toNat → x ≠ d := by rintro d hd rfl; omega
  refine ⟨?_, ?_, ?_⟩
  · simp only [clsDigit, Bool.and_eq_false_iff, decide_eq_false_iff_not, Char.le_def, UInt32.le_iff_toNat_le]
    right; show ¬ (x.toNat ≤ 57); omega
  · simp [clsLowerRoman, k]
  · simp only [clsLower, Bool.and_eq_false_iff, decide_eq_false_iff_not, Char.le_def, UInt32.le_iff_toNat_le]
    left; show ¬ (97 ≤ x.toNat); omega

/-- The first match of the alternatives at a counter. -/
theorem enumAlts_first (ga gl gu gla gua gau : Grp) {c : Counter} (h : c.Ok) {y : Char} (hy : y ≠ '#' ∧ y.isAlphanum = false) (rest : Str) (cs : Caps) :
    First (enumAlts ga gl gu gla gua gau) (c.text ++ y :: rest) cs (y :: rest, (countGrp ga gl gu gla gua gau c.auto c.kind, c.text) :: cs) := by
  obtain ⟨hne, hall⟩ := counter_text h
  have hnot : ∀ a k, countClass a k y = false := by
    intro a k
    cases e : countClass a k y with
    | false => rfl
    | true => rcases countClass_alnum e with e | e
              · exact absurd e hy.1
              · rw [hy.2] at e; cases e
  have hstop : ∀ p : Char → Bool, p y = false → ∀ x, (y :: rest).head? = some x → p x = false := by
    intro p hp x hx
    obtain rfl : y = x := by simpa using hx
    exact hp
  have hone := counter_alpha (c := c)
  obtain ⟨k, n, a⟩ := c
  simp only at hall hone ⊢
  generalize Counter.text ⟨k, n, a⟩ = w at *
  cases w with
  | nil => exact absurd rfl hne
  | cons x w =>
  have hx := hall x (by simp)
  unfold enumAlts Re.alts
  cases a with
  | true =>
    obtain ⟨x', hx'⟩ := hone (.inr (.inr rfl))
    obtain ⟨rfl, rfl⟩ := List.cons.inj hx'
    obtain rfl : x = '#' := by simpa [countClass] using hx
    refine .right (plus_cap_dead (by decide)) (.right (plus_cap_dead (by decide)) (.right (plus_cap_dead (by decide))
      (.right (cls_cap_dead (by decide)) (.right (cls_cap_dead (by decide)) ?_))))
    exact First.cap (w := ['#']) (First.cls (by decide) _ _)
  | false =>
    cases k with
    | Arabic => exact .left (First.cap (w := x :: w) (.plus hne hall (hstop _ (hnot false .Arabic)) cs))
    | LowerRoman =>
      have hl : clsDigit x = false := by
        rcases lowerRoman_iff.mp hx with h | h | h | h | h | h | h <;> subst h <;> rfl
      exact .right (plus_cap_dead hl) (.left (First.cap (w := x :: w) (.plus hne hall (hstop _ (hnot false .LowerRoman)) cs)))
    | UpperRoman =>
      have hl : clsDigit x = false ∧ clsLowerRoman x = false := by
        rcases (isRoman_iff x).mp hx with h | h | h | h | h | h | h <;> subst h <;> exact ⟨rfl, rfl⟩
      exact .right (plus_cap_dead hl.1) (.right (plus_cap_dead hl.2) (.left (First.cap (w := x :: w) (.plus hne hall (hstop _ (hnot false .UpperRoman)) cs))))
    | LowerAlpha =>
      obtain ⟨x', hx'⟩ := hone (.inl rfl)
      obtain ⟨rfl, rfl⟩ := List.cons.inj hx'
      obtain ⟨h1, h2⟩ : clsLower x = true ∧ clsLowerRoman x = false := by simpa [countClass] using hx
      obtain ⟨h3, h4, h5⟩ := lower_not_digit h1
      refine .right (plus_cap_dead h3) (.right (plus_cap_dead h2) (.right (plus_cap_dead h4) (.left ?_)))
      exact First.cap (w := [x]) (First.cls h1 _ _)
    | UpperAlpha =>
      obtain ⟨x', hx'⟩ := hone (.inr (.inl rfl))
      obtain ⟨rfl, rfl⟩ := List.cons.inj hx'
      obtain ⟨h1, h2⟩ : clsUpper x = true ∧ clsUpperRoman x = false := by simpa [countClass] using hx
      obtain ⟨h3, h4, h5⟩ := upper_not_digit h1
      refine .right (plus_cap_dead h3) (.right (plus_cap_dead h4) (.right (plus_cap_dead h2) (.right (cls_cap_dead h5) (.left ?_))))
      exact First.cap (w := [x]) (First.cls h1 _ _)
    | Automatic => exact (h rfl).elim

/-- The alternatives do not reach a parenthesis behind a full stop. -/
theorem enumAlts_dead (ga gl gu gla gua gau : Grp) {w : Str} (hw : ∀ x ∈ w, x ≠ ')') (rest : Str) (cs : Caps) :
    (Re.seq (enumAlts ga gl gu gla gua gau) (.chr ')')).run (w ++ '.' :: rest) cs = [] := by
  rw [List.eq_nil_iff_forall_not_mem]
  intro q hq
  obtain ⟨r, hr, hc⟩ := mem_seq.mp hq
  obtain ⟨t, ht, _⟩ := mem_chr.mp hc
  have key : ∃ m, w ++ '.' :: rest = m ++ ')' :: t ∧ '.' ∉ m := by
    have plus : ∀ g p, p '.' = false → r ∈ (Re.cap g (Re.plus true (.cls p))).run (w ++ '.' :: rest) cs → ∃ m, w ++ '.' :: rest = m ++ ')' :: t ∧ '.' ∉ m := by
      intro g p hp hr
      obtain ⟨m, r', e, hr', rfl⟩ := mem_cap.mp hr
      obtain ⟨_, m', _, e', hm'⟩ := mem_plus_cls.mp hr'
      simp only at ht
      refine ⟨m, by rw [e, ht], fun hin => ?_⟩
      rw [e] at e'
      rw [List.append_cancel_right e'] at hin
      have := hm' _ hin
      rw [hp] at this; cases this
    have one : ∀ g p, p '.' = false → r ∈ (Re.cap g (.cls p)).run (w ++ '.' :: rest) cs → ∃ m, w ++ '.' :: rest = m ++ ')' :: t ∧ '.' ∉ m := by
      intro g p hp hr
      obtain ⟨m, r', e, hr', rfl⟩ := mem_cap.mp hr
      obtain ⟨x, t', e', hx, rfl⟩ := mem_cls.mp hr'
      simp only at ht e
      refine ⟨m, by rw [e, ht], fun hin => ?_⟩
      rw [e] at e'
      have : m = [x] := List.append_cancel_right (by simpa using e')
      rw [this] at hin
      rw [← List.mem_singleton.mp hin, hp] at hx; cases hx
    unfold enumAlts Re.alts at hr
    rcases mem_alt.mp hr with hr | hr
    · exact plus _ _ (by decide) hr
    rcases mem_alt.mp hr with hr | hr
    · exact plus _ _ (by decide) hr
    rcases mem_alt.mp hr with hr | hr
    · exact plus _ _ (by decide) hr
    rcases mem_alt.mp hr with hr | hr
    · exact one _ _ (by decide) hr
    rcases mem_alt.mp hr with hr | hr
    · exact one _ _ (by decide) hr
    · exact one _ _ (by decide) hr
  obtain ⟨m, e, hm⟩ := key
  clear hr hq hc ht
  induction w generalizing m with
  | nil =>
    cases m with
    | nil => simp at e
    | cons a m => obtain ⟨rfl, _⟩ := List.cons.inj e; simp at hm
  | cons x w ih =>
    cases m with
    | nil => obtain ⟨rfl, _⟩ := List.cons.inj e; exact hw _ (by simp) rfl
    | cons a m => exact ih (fun y hy => hw y (by simp [hy])) m (List.cons.inj e).2 (fun h => hm (by simp [h]))

/-- The group of a counter between delimiters. -/
def counterGrp (d : EnumDelims) (c : Counter) : Grp :=
  match d with
  | .Parens => countGrp .arabicParens .lowerRomanParens .upperRomanParens .lowerAlphaParens .upperAlphaParens .autoEnumeratorParens c.auto c.kind
  | .RParen => countGrp .arabicRparen .lowerRomanRparen .upperRomanRparen .lowerAlphaRparen .upperAlphaRparen .autoEnumeratorRparen c.auto c.kind
  | .Period => countGrp .arabicPeriod .lowerRomanPeriod .upperRomanPeriod .lowerAlphaPeriod .upperAlphaPeriod .autoEnumeratorPeriod c.auto c.kind

/-- The first character of a counter. -/
theorem counter_cons {c : Counter} (h : c.Ok) : ∃ x t, c.text = x :: t ∧ (x = '#' ∨ x.isAlphanum = true) := by
  obtain ⟨hne, hall⟩ := counter_text h
  cases e : c.text with
  | nil => exact absurd e hne
  | cons x t => exact ⟨x, t, rfl, countClass_alnum (hall x (by rw [e]; simp))⟩

/-- A letter, a digit or a number sign is none of the other characters that matter. -/
theorem count_ne {x y : Char} (h : x = '#' ∨ x.isAlphanum = true) (hy : y ≠ '#' ∧ y.isAlphanum = false) : x ≠ y := by
  rintro rfl
  rcases h with h | h
  · exact hy.1 h
  · rw [hy.2] at h; cases h

theorem count_ws {x : Char} (h : x = '#' ∨ x.isAlphanum = true) : isWs x = false := by
  rcases h with rfl | h
  · decide
  · exact alnum_not_ws h

/-- The match of the pattern of enumerators at a counter. -/
theorem counter_captures {c : Counter} (h : c.Ok) (i : Nat) (d : EnumDelims) {l : Str} (hl : ∀ x, l.head? = some x → x ≠ ' ') :
    reEnumerator.captures (spaces i ++ (numeral d c ++ ' ' :: l)) =
      some ⟨spaces i ++ (numeral d c ++ [' ']), l, [(.afterMarker, [' ']), (counterGrp d c, c.text), (.indent, spaces i)]⟩ := by
  have hall : ∀ x ∈ c.text, x = '#' ∨ x.isAlphanum = true := fun x hx => countClass_alnum ((counter_text h).2 x hx)
  obtain ⟨x0, t0, e0, hx0⟩ := counter_cons h
  have hfront : ∃ x t, numeral d c = x :: t ∧ isWs x = false := by
    cases d with
    | Parens => exact ⟨'(', _, rfl, by decide⟩
    | RParen => exact ⟨x0, t0 ++ [')'], by simp [numeral, e0], count_ws hx0⟩
    | Period => exact ⟨x0, t0 ++ ['.'], by simp [numeral, e0], count_ws hx0⟩
  have hpar : ∀ (r : Re) (t : Str) (cs : Caps), (Re.seq (.chr '(') r).run (c.text ++ t) cs = [] := by
    intro r t cs
    rw [e0]
    exact run_seq_dead (run_chr_ne (count_ne hx0 (by decide)) cs)
  have hmid : First (.alt (.seq (.chr '(') (.seq (enumAlts .arabicParens .lowerRomanParens .upperRomanParens .lowerAlphaParens .upperAlphaParens
        .autoEnumeratorParens) (.chr ')'))) (.alt (.seq (enumAlts .arabicRparen .lowerRomanRparen .upperRomanRparen .lowerAlphaRparen .upperAlphaRparen
        .autoEnumeratorRparen) (.chr ')')) (.seq (enumAlts .arabicPeriod .lowerRomanPeriod .upperRomanPeriod .lowerAlphaPeriod .upperAlphaPeriod
        .autoEnumeratorPeriod) (.chr '.')))) (numeral d c ++ ' ' :: l) [(.indent, spaces i)]
      (' ' :: l, [(counterGrp d c, c.text), (.indent, spaces i)]) := by
    cases d with
    | Parens =>
      have e : numeral .Parens c ++ ' ' :: l = '(' :: (c.text ++ ')' :: ' ' :: l) := by simp [numeral]
      rw [e]
      exact .left (.seq (q := (c.text ++ ')' :: ' ' :: l, _)) (.cls (by decide) _ _) (.seq (enumAlts_first _ _ _ _ _ _ h (by decide) _ _) (.cls (by decide) _ _)))
    | RParen =>
      have e : numeral .RParen c ++ ' ' :: l = c.text ++ ')' :: ' ' :: l := by simp [numeral]
      rw [e]
      exact .right (hpar _ _ _) (.left (.seq (enumAlts_first _ _ _ _ _ _ h (by decide) _ _) (.cls (by decide) _ _)))
    | Period =>
      have e : numeral .Period c ++ ' ' :: l = c.text ++ '.' :: ' ' :: l := by simp [numeral]
      rw [e]
      exact .right (hpar _ _ _) (.right (enumAlts_dead _ _ _ _ _ _ (fun x hx => count_ne (hall x hx) (by decide)) _ _)
        (.seq (enumAlts_first _ _ _ _ _ _ h (by decide) _ _) (.cls (by decide) _ _)))
  have e : spaces i ++ (numeral d c ++ ' ' :: l) = (spaces i ++ (numeral d c ++ [' '])) ++ l := by simp
  have hrun : First reEnumerator (spaces i ++ (numeral d c ++ ' ' :: l)) [] (l, [(.afterMarker, [' ']), (counterGrp d c, c.text), (.indent, spaces i)]) := by
    refine .seq (First.cap (w := spaces i) (.star (fun x hx => by rw [List.eq_of_mem_replicate hx]; decide) ?_ [])) (.seq hmid ?_)
    · intro x hx
      obtain ⟨x', t, e', hw⟩ := hfront
      rw [e'] at hx
      obtain rfl : x' = x := by simpa using hx
      exact hw
    · refine First.cap (w := [' ']) (.left (First.plus (by simp) (by simp) ?_ _))
      intro x hx
      simpa using hl x hx
  rw [e] at hrun ⊢
  exact hrun.captures

/-- What a counter stands for in a list: its number and its kind. -/
def counterMeans (c : Counter) (listKind : Option EnumKind) (inItem : Bool) (item start : Nat) : Nat × EnumKind :=
  if c.auto then (item + start, if item == 0 && !inItem then .Arabic else listKind.getD .Arabic) else (c.value, c.kind)

theorem counter_reads {m : Match} {t ws : Str} {d : EnumDelims} {c : Counter} (hc : c.Ok)
    (h : m.caps = [(.afterMarker, t), (counterGrp d c, c.text), (.indent, ws)]) (lk : Option EnumKind) (il : Bool) (item start : Nat) :
    enumCaptures m lk il false item start = .ok (some ((counterMeans c lk il item start).1, (counterMeans c lk il item start).2, d)) := by
  obtain ⟨k, n, a⟩ := c
  cases a with
  | true =>
    unfold enumCaptures
    simp only [Match.get, h]
    cases d <;> simp [counterGrp, countGrp, List.find?, autoEnumerator, counterMeans]
  | false =>
    have hc := hc rfl
    cases k with
    | Arabic =>
      unfold enumCaptures
      simp only [Match.get, h]
      cases d <;> simp [counterGrp, countGrp, List.find?, counterMeans, Counter.text, parseUsize_decimal n hc]
    | LowerAlpha =>
      simp only at hc
      have all : ∀ n ∈ [1, 2, 5, 6, 7, 8, 10, 11, 14, 15, 16, 17, 18, 19, 20, 21, 23, 25, 26], alphaToUsize [Char.ofNat (96 + n)] = some n := by decide
      have e := all n hc
      unfold enumCaptures
      simp only [Match.get, h]
      cases d <;> simp [counterGrp, countGrp, List.find?, counterMeans, Counter.text, e]
    | UpperAlpha =>
      simp only at hc
      have all : ∀ n ∈ [1, 2, 5, 6, 7, 8, 10, 11, 14, 15, 16, 17, 18, 19, 20, 21, 23, 25, 26], alphaToUsize [Char.ofNat (64 + n)] = some n := by decide
      have e := all n hc
      unfold enumCaptures
      simp only [Match.get, h]
      cases d <;> simp [counterGrp, countGrp, List.find?, counterMeans, Counter.text, e]
    | LowerRoman =>
      have e := C11_lower n hc.2
      have one : romanLower (romanNumeral n) = ['i'] → n = 1 := by
        intro h
        rw [h] at e
        have : lowerRomanToUsize ['i'] = some 1 := by simp [lowerRomanToUsize, romanLoop, lowerRomanToken, romanMax]
        rw [this] at e; injection e with e; exact e.symm
      unfold enumCaptures
      simp only [Match.get, h]
      by_cases hi : romanLower (romanNumeral n) = ['i'] ∧ item = 0
      · have := one hi.1
        subst this
        cases d <;> simp [counterGrp, countGrp, List.find?, counterMeans, Counter.text, hi]
      · have hi' : ¬ ((romanLower (romanNumeral n) == ['i'] && item == 0) = true) := by simpa using hi
        cases d <;> simp [counterGrp, countGrp, List.find?, counterMeans, Counter.text, e] <;> (intro h1 h2; exact absurd ⟨h1, h2⟩ hi)
    | UpperRoman =>
      have e := C11_upper n hc.2
      have one : romanNumeral n = ['I'] → n = 1 := by
        intro h
        rw [h] at e
        have : upperRomanToUsize ['I'] = some 1 := by simp [upperRomanToUsize, romanLoop, upperRomanToken, romanMax]
        rw [this] at e; injection e with e; exact e.symm
      have low : romanNumeral n ≠ ['i'] := by
        intro h
        have := romanNumeral_chars n 'i' (by rw [h]; simp)
        revert this; decide
      unfold enumCaptures
      simp only [Match.get, h]
      by_cases hi : romanNumeral n = ['I'] ∧ item = 0
      · have := one hi.1
        subst this
        have hne : (['I'] : Str) ≠ ['i'] := by decide
        rw [hi.1] at e
        cases d <;> simp [counterGrp, countGrp, List.find?, counterMeans, Counter.text, hi, e, hne]
      · cases d <;> simp [counterGrp, countGrp, List.find?, counterMeans, Counter.text, e, low]
        intro h1 h2; exact absurd ⟨h1, h2⟩ hi
    | Automatic => exact hc.elim

end Rustla
