import Verif.Props.Converters
/-! # C12: recognising items of enumerated lists -/
namespace Rustla

/-! ### Enumerated lines -/

/-- An enumerator: a number between the delimiters. -/
def enumText (d : EnumDelims) (num : Str) : Str :=
  match d with
  | .Parens => '(' :: (num ++ str! ")")
  | .RParen => num ++ str! ")"
  | .Period => num ++ str! "."

/-- An enumerated line: indentation, enumerator, a space and the text. -/
def enumLine (ws : Str) (d : EnumDelims) (num text : Str) : Str := ws ++ (enumText d num ++ ' ' :: text)

theorem digitsVal_decimal (n : Nat) : digitsVal (decimal n) = n := by
  have h := Nat.ofDigitChars_ten_toDigits (n := n)
  unfold digitsVal decimal
  simpa [Nat.ofDigitChars] using h

theorem decimal_ne_nil (n : Nat) : decimal n ≠ [] := by
  unfold decimal
  intro h
  have := Nat.length_toDigits_pos (b := 10) (n := n)
  rw [h] at this; simp at this

theorem decimal_clsDigit (n : Nat) : ∀ c ∈ decimal n, clsDigit c = true := by
  intro c hc
  have := Nat.isDigit_of_mem_toDigits (b := 10) (n := n) (by omega) (by omega) hc
  simp only [Char.isDigit, Bool.and_eq_true, decide_eq_true_eq, ge_iff_le] at this
  simp only [clsDigit, Bool.and_eq_true, decide_eq_true_eq]
  exact this

theorem parseUsize_decimal (n : Nat) (h : n < 2 ^ 64) : parseUsize (decimal n) = some n := by
  unfold parseUsize
  have h1 : (decimal n).isEmpty = false := by
    cases he : decimal n with
    | nil => exact absurd he (decimal_ne_nil n)
    | cons => rfl
  have h2 : (decimal n).all clsDigit = true := by simpa using decimal_clsDigit n
  simp [h1, h2, digitsVal_decimal, h]

theorem flatMap_map {α β γ} (l : List α) (f : α → β) (g : β → List γ) :
    (l.map f).flatMap g = l.flatMap (fun a => g (f a)) := by
  induction l with
  | nil => rfl
  | cons a l ih => simp [ih]

/-- what follows an enumerator: blanks or the end of the line -/
def reAfterMarker : Re := .cap .afterMarker (.alt (Re.plus true (.chr ' ')) .eos)

theorem afterMarker_space (text : Str) (cs : Caps) :
    ∃ x xs, reAfterMarker.run (' ' :: text) cs = x :: xs ∧ x.1 = text.drop (text.takeWhile (· == ' ')).length ∧
      ∃ t, x.2 = (Grp.afterMarker, t) :: cs := by
  have : reAfterMarker.run (' ' :: text) cs =
      ((Re.alt (Re.plus true (.chr ' ')) .eos).run (' ' :: text) cs).map fun q =>
        (q.1, (Grp.afterMarker, (' ' :: text).take ((' ' :: text).length - q.1.length)) :: q.2) := rfl
  rw [this]
  have h2 : ∃ a as, (Re.alt (Re.plus true (.chr ' ')) .eos).run (' ' :: text) cs = a :: as ∧ a.1 = text.drop (text.takeWhile (· == ' ')).length ∧ a.2 = cs := by
    have : (Re.alt (Re.plus true (.chr ' ')) .eos).run (' ' :: text) cs =
        (Re.star true (.cls (· == ' '))).run text cs := by
      simp [Re.run, Re.plus, Re.chr]
    rw [this, run_star_cls, List.range_succ, List.reverse_append]
    simp
  obtain ⟨a, as, h2, h4, h3⟩ := h2
  rw [h2]
  exact ⟨_, _, rfl, h4, _, congrArg (_ :: ·) h3⟩

theorem reAfterMarker_ne {c : Char} (h : c ≠ ' ') (s : Str) (cs : Caps) : reAfterMarker.run (c :: s) cs = [] := by
  simp [reAfterMarker, Re.run, Re.plus, Re.chr, h]

theorem chr_run_ne {c d : Char} (h : c ≠ d) (s : Str) (cs : Caps) : (Re.chr d).run (c :: s) cs = [] := by
  simp [Re.run, Re.chr, h]

theorem chr_run_eq {c : Char} (s : Str) (cs : Caps) : (Re.chr c).run (c :: s) cs = [(s, cs)] := by
  simp [Re.run, Re.chr]

/-- Which capture group a number between delimiters lands in. -/
def arabicGrp : EnumDelims → Grp
  | .Parens => .arabicParens
  | .RParen => .arabicRparen
  | .Period => .arabicPeriod

theorem digit_ne {c d : Char} (hc : clsDigit c = true) (hd : clsDigit d = false) : c ≠ d := by
  rintro rfl; simp [hc] at hd

theorem digit_lr {c : Char} (hc : clsDigit c = true) : clsLowerRoman c = false ∧ clsUpperRoman c = false ∧
    clsLower c = false ∧ clsUpper c = false := by
  have hn : 48 ≤ c.toNat ∧ c.toNat ≤ 57 := by
    simp only [clsDigit, Bool.and_eq_true, decide_eq_true_eq, Char.le_def, UInt32.le_iff_toNat_le] at hc
    exact hc
  have k : ∀ d : Char, 57 < d.toNat → c ≠ d := by rintro d hd rfl; omega
  refine ⟨?_, ?_, ?_, ?_⟩
  · simp [clsLowerRoman, k]
  · simp [clsUpperRoman, k]
  · simp only [clsLower, Bool.and_eq_false_iff, decide_eq_false_iff_not, Char.le_def, UInt32.le_iff_toNat_le]
    left; show ¬ (97 ≤ c.toNat); omega
  · simp only [clsUpper, Bool.and_eq_false_iff, decide_eq_false_iff_not, Char.le_def, UInt32.le_iff_toNat_le]
    left; show ¬ (65 ≤ c.toNat); omega

theorem clsDigit_not_ws {c : Char} (hc : clsDigit c = true) : isWs c = false := by
  have hn : 48 ≤ c.toNat ∧ c.toNat ≤ 57 := by
    simp only [clsDigit, Bool.and_eq_true, decide_eq_true_eq, Char.le_def, UInt32.le_iff_toNat_le] at hc
    exact hc
  unfold isWs
  simp only [Bool.or_eq_false_iff, Bool.and_eq_false_iff, beq_eq_false_iff_ne, decide_eq_false_iff_not]
  omega

/-- One numbering style of the enumerator pattern on a string of digits followed by something that is not
a digit: only the Arabic group matches, and only with all the digits. -/
theorem alts_digits (ga gl gu gla gua gau : Grp) (close : Char) (hcl : clsDigit close = false)
    (ds rest : Str) (hne : ds ≠ []) (hds : ∀ c ∈ ds, clsDigit c = true)
    (hr : ∀ c, rest.head? = some c → clsDigit c = false) (cs : Caps) :
    (Re.seq (Re.alts [(.cap ga (Re.plus true (.cls clsDigit))), (.cap gl (Re.plus true (.cls clsLowerRoman))), (.cap
      gu (Re.plus true (.cls clsUpperRoman))), (.cap gla (.cls clsLower)), (.cap
      gua (.cls clsUpper)), (.cap gau (.chr '#'))]) (.chr close)).run (ds ++ rest) cs =
      (Re.chr close).run rest ((ga, ds) :: cs) := by
  obtain ⟨d, ds', rfl⟩ : ∃ d ds', ds = d :: ds' := by cases ds with | nil => exact absurd rfl hne | cons d t => exact ⟨d, t, rfl⟩
  obtain ⟨n1, n2, n3, n4⟩ := digit_lr (hds d (by simp))
  have n5 : (d == '#') = false := by simpa using digit_ne (d := '#') (hds d (by simp)) (by decide)
  have hempty : ∀ g p, p d = false → (Re.cap g (Re.plus true (.cls p))).run (d :: ds' ++ rest) cs = [] := by
    intro g p hp; simp [Re.run, Re.plus, hp]
  have e1 : (Re.alts [(.cap ga (Re.plus true (.cls clsDigit))), (.cap gl (Re.plus true (.cls clsLowerRoman))), (.cap
      gu (Re.plus true (.cls clsUpperRoman))), (.cap gla (.cls clsLower)), (.cap
      gua (.cls clsUpper)), (.cap gau (.chr '#'))]).run (d :: ds' ++ rest) cs =
      (Re.cap ga (Re.plus true (.cls clsDigit))).run (d :: ds' ++ rest) cs := by
    show (Re.cap ga (Re.plus true (.cls clsDigit))).run (d :: ds' ++ rest) cs ++
      ((Re.cap gl (Re.plus true (.cls clsLowerRoman))).run (d :: ds' ++ rest) cs ++ (
       (Re.cap gu (Re.plus true (.cls clsUpperRoman))).run (d :: ds' ++ rest) cs ++ (
       (Re.cap gla (.cls clsLower)).run (d :: ds' ++ rest) cs ++ (
       (Re.cap gua (.cls clsUpper)).run (d :: ds' ++ rest) cs ++ (
       (Re.cap gau (.chr '#')).run (d :: ds' ++ rest) cs))))) = _
    rw [hempty gl _ n1, hempty gu _ n2]
    simp [Re.run, n3, n4, Re.chr, n5]
  show List.flatMap _ _ = _
  rw [e1]
  show List.flatMap _ (List.map _ _) = _
  rw [flatMap_map]
  rw [run_plus_then (fun a => (Re.chr close).run a.1 ((ga, (d :: ds' ++ rest).take ((d :: ds' ++ rest).length - a.1.length)) :: a.2))
    (fun c s cs hc => chr_run_ne (digit_ne hc hcl) _ _) (d :: ds') rest hne hds hr cs]
  congr 2
  simp only [List.length_append, Nat.add_sub_cancel]
  rw [List.take_left]

theorem captures_of_run {r : Re} {s : Str} {x : Str × Caps} {xs : List (Str × Caps)} (h : r.run s [] = x :: xs) :
    ∃ m, r.captures s = some m ∧ m.caps = x.2 ∧ m.whole = s.take (s.length - x.1.length) := by
  unfold Re.captures; rw [h]; exact ⟨_, rfl, rfl, rfl⟩

/-- The enumerator pattern on a line with an Arabic enumerator. -/
theorem enumerator_arabic (ws : Str) (hws : ∀ c ∈ ws, isWs c = true) (d : EnumDelims) (n : Nat) (text : Str) :
    ∃ m t, reEnumerator.captures (enumLine ws d (decimal n) text) = some m ∧
      m.caps = [(.afterMarker, t), (arabicGrp d, decimal n), (.indent, ws)] ∧
      m.whole.length = (enumLine ws d (decimal n) text).length - (text.length - (text.takeWhile (· == ' ')).length) := by
  have hdg := decimal_clsDigit n
  have hne := decimal_ne_nil n
  obtain ⟨d0, ds', hd0⟩ : ∃ d0 ds', decimal n = d0 :: ds' := by
    cases h : decimal n with | nil => exact absurd h hne | cons d t => exact ⟨d, t, rfl⟩
  have hd0' : clsDigit d0 = true := hdg d0 (by rw [hd0]; simp)
  let mid : Re := (.alt (.seq (.chr '(') (.seq (Re.alts [(.cap .arabicParens
    (Re.plus true (.cls clsDigit))), (.cap .lowerRomanParens (Re.plus true (.cls clsLowerRoman))), (.cap
    .upperRomanParens (Re.plus true (.cls clsUpperRoman))), (.cap .lowerAlphaParens (.cls clsLower)), (.cap
    .upperAlphaParens (.cls clsUpper)), (.cap .autoEnumeratorParens (.chr '#'))]) (.chr ')'))) (.alt (.seq
    (Re.alts [(.cap .arabicRparen (Re.plus true (.cls clsDigit))), (.cap .lowerRomanRparen (Re.plus true (.cls
    clsLowerRoman))), (.cap .upperRomanRparen (Re.plus true (.cls clsUpperRoman))), (.cap .lowerAlphaRparen
    (.cls clsLower)), (.cap .upperAlphaRparen (.cls clsUpper)), (.cap .autoEnumeratorRparen (.chr '#'))])
    (.chr ')')) (.seq (Re.alts [(.cap .arabicPeriod (Re.plus true (.cls clsDigit))), (.cap .lowerRomanPeriod
    (Re.plus true (.cls clsLowerRoman))), (.cap .upperRomanPeriod (Re.plus true (.cls clsUpperRoman))), (.cap
    .lowerAlphaPeriod (.cls clsLower)), (.cap .upperAlphaPeriod (.cls clsUpper)), (.cap .autoEnumeratorPeriod
    (.chr '#'))]) (.chr '.'))))
  have hmidWs : ∀ c s cs, isWs c = true → mid.run (c :: s) cs = [] := by
    intro c s cs hc
    have h1 : clsDigit c = false := by
      cases h : clsDigit c with
      | false => rfl
      | true => rw [clsDigit_not_ws h] at hc; cases hc
    have hq : ∀ d : Char, isWs d = false → c ≠ d := by rintro d hd rfl; rw [hc] at hd; cases hd
    have h2 : clsLowerRoman c = false := by simp [clsLowerRoman, hq, isWs]
    have h3 : clsUpperRoman c = false := by simp [clsUpperRoman, hq, isWs]
    have h4 : clsLower c = false := by
      simp only [clsLower, Bool.and_eq_false_iff, decide_eq_false_iff_not, Char.le_def, UInt32.le_iff_toNat_le]
      show ¬ (97 ≤ c.toNat) ∨ ¬ (c.toNat ≤ 122)
      unfold isWs at hc
      simp only [Bool.or_eq_true, Bool.and_eq_true, beq_iff_eq, decide_eq_true_eq] at hc
      omega
    have h5 : clsUpper c = false := by
      simp only [clsUpper, Bool.and_eq_false_iff, decide_eq_false_iff_not, Char.le_def, UInt32.le_iff_toNat_le]
      show ¬ (65 ≤ c.toNat) ∨ ¬ (c.toNat ≤ 90)
      unfold isWs at hc
      simp only [Bool.or_eq_true, Bool.and_eq_true, beq_iff_eq, decide_eq_true_eq] at hc
      omega
    simp [mid, Re.run, Re.alts, Re.plus, Re.chr, h1, h2, h3, h4, h5, hq '(' (by decide), hq '#' (by decide)]
  have hmid : mid.run (enumText d (decimal n) ++ ' ' :: text) [(.indent, ws)] =
      [(' ' :: text, [(arabicGrp d, decimal n), (.indent, ws)])] := by
    have par : ∀ cs c, clsDigit c = true → ∀ s, (Re.seq (Re.chr '(') (Re.seq (Re.alts [(Re.cap .arabicParens
        (Re.plus true (.cls clsDigit))), (.cap .lowerRomanParens (Re.plus true (.cls clsLowerRoman))), (.cap
        .upperRomanParens (Re.plus true (.cls clsUpperRoman))), (.cap .lowerAlphaParens (.cls clsLower)), (.cap
        .upperAlphaParens (.cls clsUpper)), (.cap .autoEnumeratorParens (.chr '#'))]) (.chr ')'))).run (c :: s) cs = [] := by
      intro cs c hc s
      show List.flatMap _ _ = _
      rw [chr_run_ne (digit_ne hc (by decide))]; rfl
    cases d with
    | Parens =>
      simp only [enumText, mid, arabicGrp]
      show List.flatMap _ ((Re.chr '(').run ('(' :: (decimal n ++ [')']) ++ ' ' :: text) _) ++ (_ ++ _) = _
      rw [List.cons_append, chr_run_eq, List.flatMap_cons, List.flatMap_nil, List.append_nil, List.append_assoc]
      dsimp only
      rw [alts_digits _ _ _ _ _ _ _ (by decide) _ _ hne hdg (by intro c hc; simp at hc; subst hc; decide)]
      simp [Re.run, Re.alts, Re.plus, Re.chr, clsDigit, clsLowerRoman, clsUpperRoman, clsLower, clsUpper]
    | RParen =>
      simp only [enumText, mid, arabicGrp]
      show Re.run _ _ _ ++ (Re.run _ _ _ ++ Re.run _ _ _) = _
      rw [List.append_assoc, alts_digits _ _ _ _ _ _ _ (by decide) _ _ hne hdg (by intro c hc; simp at hc; subst hc; decide),
        alts_digits _ _ _ _ _ _ _ (by decide) _ _ hne hdg (by intro c hc; simp at hc; subst hc; decide)]
      rw [hd0, List.cons_append, par _ _ hd0']
      simp [Re.run, Re.chr]
    | Period =>
      simp only [enumText, mid, arabicGrp]
      show Re.run _ _ _ ++ (Re.run _ _ _ ++ Re.run _ _ _) = _
      rw [List.append_assoc, alts_digits _ _ _ _ _ _ _ (by decide) _ _ hne hdg (by intro c hc; simp at hc; subst hc; decide),
        alts_digits _ _ _ _ _ _ _ (by decide) _ _ hne hdg (by intro c hc; simp at hc; subst hc; decide)]
      rw [hd0, List.cons_append, par _ _ hd0']
      simp [Re.run, Re.chr]
  have hhead : ∀ c, (enumText d (decimal n) ++ ' ' :: text).head? = some c → isWs c = false := by
    intro c hc
    cases d <;> simp [enumText, hd0] at hc <;> subst hc
    all_goals first | decide | exact clsDigit_not_ws hd0'
  have hrun : reEnumerator.run (enumLine ws d (decimal n) text) [] =
      reAfterMarker.run (' ' :: text) [(arabicGrp d, decimal n), (.indent, ws)] := by
    show List.flatMap (fun r : Str × Caps => (Re.seq mid reAfterMarker).run r.1 r.2) (List.map _ _) = _
    rw [flatMap_map]
    rw [enumLine, run_star_then (fun a => (Re.seq mid reAfterMarker).run a.1 ((Grp.indent, (ws ++ (enumText d (decimal n) ++ ' ' :: text)).take
        ((ws ++ (enumText d (decimal n) ++ ' ' :: text)).length - a.1.length)) :: a.2)) ?_ ws _ hws hhead]
    · rw [List.length_append, Nat.add_sub_cancel, List.take_left]
      show List.flatMap _ (mid.run _ _) = _
      rw [hmid]; simp
    · intro c s cs hc
      show List.flatMap _ (mid.run (c :: s) _) = _
      rw [hmidWs c _ _ hc]; rfl
  obtain ⟨x, xs, hx, hx1, t, ht⟩ := afterMarker_space text [(arabicGrp d, decimal n), (.indent, ws)]
  obtain ⟨m, hm, hc, hw⟩ := captures_of_run (hrun.trans hx)
  refine ⟨m, t, hm, hc.trans ht, ?_⟩
  rw [hw, hx1, List.length_take, List.length_drop, Nat.min_eq_left (Nat.sub_le _ _)]

theorem enumCaptures_arabic {m : Match} {t ws : Str} {d : EnumDelims} {n : Nat}
    (h : m.caps = [(.afterMarker, t), (arabicGrp d, decimal n), (.indent, ws)]) (hn : n < 2 ^ 64)
    (lk : Option EnumKind) (il obs : Bool) (item start : Nat) :
    enumCaptures m lk il obs item start = .ok (some (if obs then n + 1 else n, .Arabic, d)) := by
  unfold enumCaptures
  simp only [Match.get, h]
  cases d <;> simp [arabicGrp, List.find?, parseUsize_decimal n hn]


theorem indentOf_enumLine (ws : Str) (hws : ∀ c ∈ ws, isWs c = true) (d : EnumDelims) (n : Nat) (text : Str) :
    indentOf (enumLine ws d (decimal n) text) = ws.length ∧ isBlank (enumLine ws d (decimal n) text) = false := by
  obtain ⟨d0, ds', hd0⟩ : ∃ d0 ds', decimal n = d0 :: ds' := by
    cases h : decimal n with | nil => exact absurd h (decimal_ne_nil n) | cons d t => exact ⟨d, t, rfl⟩
  have hd0' : isWs d0 = false := clsDigit_not_ws (decimal_clsDigit n d0 (by rw [hd0]; simp))
  obtain ⟨c, cs, hc, hw⟩ : ∃ c cs, enumText d (decimal n) ++ ' ' :: text = c :: cs ∧ isWs c = false := by
    cases d <;> simp only [enumText, hd0] <;>
      first | exact ⟨_, _, rfl, hd0'⟩ | exact ⟨'(', _, rfl, by decide⟩
  constructor
  · unfold indentOf enumLine
    rw [hc, List.takeWhile_append_of_pos hws]
    simp [hw]
  · rw [isBlank_false_iff]
    exact ⟨c, by simp [enumLine, hc], hw⟩

/-- **C12** (partial) What the look-ahead does with Arabic enumerators: if the line after an item numbered
`number` is itself an enumerated line with the same indentation, the item is recognised exactly if that line
carries the *same* number (and kind and delimiters).  The property asks for the successor of the number; see
`C12_violated`. -/
theorem C12_lookahead_partial (src : List Str) (cursor : LineCursor) (base number next : Nat) (kind listKind : EnumKind)
    (delims d : EnumDelims) (inItem : Bool) (item start : Nat) (ws text : Str)
    (hws : ∀ c ∈ ws, isWs c = true) (hn : next < 2 ^ 64)
    (hl : src[cursor.relativeOffset + 1]? = some (enumLine ws d (decimal next) text)) :
    isEnumeratedListItem src cursor base (ws.length + base) number kind delims listKind inItem item start =
      .ok (next == number && .Arabic == kind && d == delims) := by
  obtain ⟨m, t, hm, hc, _⟩ := enumerator_arabic ws hws d next text
  obtain ⟨hi, hb⟩ := indentOf_enumLine ws hws d next text
  unfold isEnumeratedListItem
  rw [hl]
  simp only [hi, hb, Bool.false_or, Nat.lt_irrefl, gt_iff_lt, decide_false, if_true, hm,
    enumCaptures_arabic hc hn, Bool.false_eq_true, if_false]
  congr 3
  simp

/-- **C12** (violated) Consecutive Arabic items do *not* form a list: whatever `n`, a line numbered `n` that is
directly followed by a line numbered `n + 1` in the same style is not recognised as a list item. -/
theorem C12_violated (src : List Str) (cursor : LineCursor) (base n : Nat) (listKind : EnumKind)
    (d : EnumDelims) (inItem : Bool) (item start : Nat) (ws text : Str)
    (hws : ∀ c ∈ ws, isWs c = true) (hn : n + 1 < 2 ^ 64)
    (hl : src[cursor.relativeOffset + 1]? = some (enumLine ws d (decimal (n + 1)) text)) :
    isEnumeratedListItem src cursor base (ws.length + base) n .Arabic d listKind inItem item start = .ok false := by
  rw [C12_lookahead_partial src cursor base n (n + 1) .Arabic listKind d d inItem item start ws text hws hn hl]
  simp

/-- **C12** (partial) Items whose next line is blank, more indented, less indented or missing are recognised. -/
theorem C12_separated_partial (src : List Str) (cursor : LineCursor) (base indent number : Nat) (kind listKind : EnumKind)
    (delims : EnumDelims) (inItem : Bool) (item start : Nat)
    (h : ∀ l, src[cursor.relativeOffset + 1]? = some l → isBlank l = true ∨ indentOf l + base ≠ indent) :
    isEnumeratedListItem src cursor base indent number kind delims listKind inItem item start = .ok true := by
  unfold isEnumeratedListItem
  split
  · rfl
  · rename_i l hl
    rcases h l hl with h | h
    · simp [h]
    · simp only [h, if_false]; split <;> rfl

/-- The two lines `3. three` and `4. four`, as a user would write a list. -/
example : isEnumeratedListItem [str! "3. three", str! "4. four"] ⟨0, 1⟩ 0 0 3 .Arabic .Period .Arabic false 0 1 = .ok false :=
  C12_violated _ _ 0 3 _ .Period _ _ _ [] (str! "four") (by simp) (by decide) (by rfl)

/-- ... and two lines with the same number, which are taken for a list. -/
example : isEnumeratedListItem [str! "3. three", str! "3. four"] ⟨0, 1⟩ 0 0 3 .Arabic .Period .Arabic false 0 1 = .ok true :=
  C12_lookahead_partial _ _ 0 3 3 .Arabic _ .Period .Period _ _ _ [] (str! "four") (by simp) (by decide) (by rfl)

end Rustla
