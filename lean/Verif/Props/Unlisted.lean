import Verif.Lemmas.Marks
import Verif.Props.Paragraphs
import Verif.Spec.Unlisted

/-!
# Enumerated lists without empty lines between the items
-/

namespace Rustla

open Spec

/-- What the look-ahead reads at the numeral on the next line: one more than its number. -/
theorem counter_reads_next {m : Match} {t ws : Str} {d : EnumDelims} {c : Counter} (hc : c.Ok) (ha : c.auto = false) (h1 : c.value ≠ 1)
    (h : m.caps = [(.afterMarker, t), (counterGrp d c, c.text), (.indent, ws)]) (lk : Option EnumKind) (il : Bool) (item start : Nat) :
    enumCaptures m lk il true item start = .ok (some (c.value + 1, c.kind, d)) := by
  obtain ⟨k, n, a⟩ := c
  obtain rfl : a = false := ha
  have hc := hc rfl
  simp only at h1
  cases k with
  | Arabic =>
    unfold enumCaptures
    simp only [Match.get, h]
    cases d <;> simp [counterGrp, countGrp, List.find?, Counter.text, parseUsize_decimal n hc]
  | LowerAlpha =>
    simp only at hc
    have all : ∀ n ∈ [1, 2, 5, 6, 7, 8, 10, 11, 14, 15, 16, 17, 18, 19, 20, 21, 23, 25, 26], alphaToUsize [Char.ofNat (96 + n)] = some n := by decide
    have e := all n hc
    unfold enumCaptures
    simp only [Match.get, h]
    cases d <;> simp [counterGrp, countGrp, List.find?, Counter.text, e]
  | UpperAlpha =>
    simp only at hc
    have all : ∀ n ∈ [1, 2, 5, 6, 7, 8, 10, 11, 14, 15, 16, 17, 18, 19, 20, 21, 23, 25, 26], alphaToUsize [Char.ofNat (64 + n)] = some n := by decide
    have e := all n hc
    unfold enumCaptures
    simp only [Match.get, h]
    cases d <;> simp [counterGrp, countGrp, List.find?, Counter.text, e]
  | LowerRoman =>
    have e := C11_lower n hc.2
    have one : romanLower (romanNumeral n) ≠ ['i'] := by
      intro h
      rw [h] at e
      have : lowerRomanToUsize ['i'] = some 1 := by simp [lowerRomanToUsize, romanLoop, lowerRomanToken, romanMax]
      rw [this] at e; injection e with e; exact h1 e.symm
    unfold enumCaptures
    simp only [Match.get, h]
    cases d <;> simp [counterGrp, countGrp, List.find?, Counter.text, e, one]
  | UpperRoman =>
    have e := C11_upper n hc.2
    have one : romanNumeral n ≠ ['I'] := by
      intro h
      rw [h] at e
      have : upperRomanToUsize ['I'] = some 1 := by simp [upperRomanToUsize, romanLoop, upperRomanToken, romanMax]
      rw [this] at e; injection e with e; exact h1 e.symm
    have low : romanNumeral n ≠ ['i'] := by
      intro h
      have := romanNumeral_chars n 'i' (by rw [h]; simp)
      revert this; decide
    unfold enumCaptures
    simp only [Match.get, h]
    cases d <;> simp [counterGrp, countGrp, List.find?, Counter.text, e, one, low]
  | Automatic => exact hc.elim

theorem numeral_indent (d : EnumDelims) {c : Counter} (hc : c.Ok) (l : Str) :
    indentOf (numeral d c ++ ' ' :: l) = 0 ∧ isBlank (numeral d c ++ ' ' :: l) = false := by
  obtain ⟨x, t, e, hx⟩ := number_front d hc
  have e' : numeral d c ++ ' ' :: l = x :: (t ++ l) := by
    have : (Tag.number d c).text ++ l = x :: t ++ l := by rw [e]
    simpa [Tag.text] using this
  have hw := (digit_alone hx).1
  rw [e']
  exact ⟨by simp [indentOf, hw], indented_not_blank (t := t ++ l) hw 0⟩

/-- The look-ahead finds that the line is not an item. -/
theorem unlisted_invalid {d : EnumDelims} {c : Counter} {b : Str} {src : List Str} {cursor : LineCursor} {base : Nat}
    (hb : src[cursor.relativeOffset + 1]? = some b) (hblank : isBlank b = false) (hind : indentOf b = 0) {n : Nat} {k : EnumKind}
    (h : reEnumerator.captures b = none ∨ ∃ m v k' d', reEnumerator.captures b = some m ∧ enumCaptures m (some k) false true 0 1 = .ok (some (v + 1, k', d')) ∧
      ¬ (d' = d ∧ k' = k ∧ v = n)) :
    isEnumeratedListItem src cursor base (0 + base) n k d k false 0 1 = .ok false := by
  unfold isEnumeratedListItem
  rw [hb]
  simp only [hind, hblank, Nat.lt_irrefl, decide_false, Bool.or_false, Bool.false_eq_true, if_false, gt_iff_lt, if_true]
  rcases h with h | ⟨m, v, k', d', h, h2, h3⟩
  · rw [h]
  · rw [h]
    simp only [h2]
    congr 1
    simp only [Bool.and_eq_false_iff, beq_eq_false_iff_ne, ne_eq]
    by_cases h1 : v = n
    · by_cases h2 : k' = k
      · exact .inr fun e => h3 ⟨e, h2, h1⟩
      · exact .inl (.inr h2)
    · exact .inl (.inl (by omega))

theorem front_indent {x : Str} (hx : TextLine x) : indentOf x = 0 ∧ isBlank x = false := by
  obtain ⟨c, t, rfl, h⟩ := hx.cons
  exact ⟨by simp [indentOf, h], indented_not_blank (t := t) h 0⟩

/-- A numbered line that is not an item is text. -/
theorem enumerator_text {E : Env} {ps : PS} {d : EnumDelims} {c : Counter} {l b : Str} {ls : List Str} (hc : c.Ok) (hl : TextLine l)
    (h : E.src.drop ps.cursor.relativeOffset = (numeral d c ++ ' ' :: l) :: b :: ls) (hblank : isBlank b = false) (hind : indentOf b = 0)
    (hno : reEnumerator.captures b = none ∨ ∃ m v k' d', reEnumerator.captures b = some m ∧
      (∀ k, enumCaptures m (some k) false true 0 1 = .ok (some (v + 1, k', d'))) ∧
      ¬ (d' = d ∧ k' = (counterMeans c none false 0 1).2 ∧ v = (counterMeans c none false 0 1).1)) :
    ∃ m tr, firstTransition (numeral d c ++ ' ' :: l) (bodyTable E) = some (m, tr) ∧ tr m ps = textAt E 0 ps := by
  obtain ⟨m, t, h1, _, h3, _⟩ := number_transition hl E 0 d hc
  have e : indentLine 0 ((Tag.number d c).text ++ l) = numeral d c ++ ' ' :: l := by simp [indentLine, Tag.text]
  rw [e] at h1
  refine ⟨m, _, h1, ?_⟩
  have hi := number_indent h3
  have hread := counter_reads hc h3 none false 0 1
  have hnext : E.src[ps.cursor.relativeOffset + 1]? = some b := by
    have := congrArg (·[1]?) h
    simpa using this
  have hvalid := unlisted_invalid (base := E.baseIndent) (d := d) (c := c) hnext hblank hind (n := (counterMeans c none false 0 1).1)
    (k := (counterMeans c none false 0 1).2) (by
      rcases hno with h | ⟨m, v, k', d', g1, g2, g3⟩
      · exact .inl h
      · exact .inr ⟨m, v, k', d', g1, g2 _, g3⟩)
  unfold bodyEnumerator
  simp only [hi, List.length_replicate, bind, P.bind, P.lift, hread, P.required, P.cursor, pure, P.pure, hvalid, Bool.not_false, if_true]

theorem crowded_reads {g : List Str} (hg : Crowded g) (E : Env) : ReadsAsText E g := by
  obtain ⟨⟨a, b, t, rfl, hu⟩, _⟩ := hg
  intro ps rest l hd hh
  obtain rfl : a = l := by simpa using hh
  cases hu with
  | @prose d c l x hc hl hx hn =>
    obtain ⟨y, t', e, hy⟩ := hx.cons
    refine enumerator_text hc hl hd (front_indent hx).2 (front_indent hx).1 (.inl ?_)
    subst e
    exact enumerator_dead hy hn
  | @other d d' c c' l x hc hc' ha ha' h1 hne hl hx =>
    obtain ⟨m, t', g1, g2, _⟩ := number_captures hx 0 d' hc'
    have e : indentLine 0 ((Tag.number d' c').text ++ x) = numeral d' c' ++ ' ' :: x := by simp [indentLine, Tag.text]
    rw [e] at g1
    refine enumerator_text hc hl hd (numeral_indent d' hc' x).2 (numeral_indent d' hc' x).1
      (.inr ⟨m, c'.value, c'.kind, d', g1, fun k => counter_reads_next hc' ha' h1 g2 _ _ _ _, ?_⟩)
    simpa [counterMeans, ha] using hne

theorem crowded_prose {g : List Str} (hg : Crowded g) : ProseLines g :=
  ⟨⟨fun l hl => (hg.2 l hl).1, fun l hl => (hg.2 l hl).2⟩, crowded_reads hg⟩

theorem plain_prose {g : List Str} (hg : ∀ l ∈ g, PlainLine l) : ProseLines g :=
  ⟨⟨fun l hl => (hg l hl).toTextLine, fun l hl => (hg l hl).noMarkup⟩, readsAsText (textLines_plain hg)⟩

theorem prose_group {g : List Str} (h : (∀ l ∈ g, PlainLine l) ∨ Crowded g) : ProseLines g := h.elim plain_prose crowded_prose

/-- **C82** (partial: half of the property, the other one is false of the code) A line that starts with a numeral is the beginning of a paragraph, not of a list, if the line right below it is ordinary text or starts
with a numeral that does not fit.  A document of such paragraphs and of plain ones has exactly one paragraph per group of lines, in order. -/
theorem C82_paragraphs_partial (fuel : Nat) (stem folder : Str) (lines : List Str) (gs : List (List Str)) (hne : lines ≠ [])
    (hg : Groups lines gs) (hp : ∀ g ∈ gs, (∀ l ∈ g, PlainLine l) ∨ Crowded g) (hfuel : lines.length < fuel) :
    ∃ d t, parseDocument fuel stem folder lines = .ok (.eof d [.Body]) ∧ IsDoc d.tree t ∧
      shapeOf t = .node .Document (gs.map (plainShape 0)) :=
  prose_paragraphs fuel stem folder lines gs hne hg (fun g h => prose_group (hp g h)) hfuel

/-- **C82** (partial) The output for such a document: the text of every group of lines, escaped for LaTeX, with the numerals in it. -/
theorem C82_output_partial (fuel : Nat) (w : WriterEnv) (stem folder : Str) (lines : List Str) (gs : List (List Str)) (hne : lines ≠ [])
    (hg : Groups lines gs) (hp : ∀ g ∈ gs, (∀ l ∈ g, PlainLine l) ∨ Crowded g) (hb : ∀ g ∈ gs, ∀ l ∈ g, '\\' ∉ l)
    (hfuel : lines.length < fuel) (hfull : w.fullDocument = false) :
    (transpile fuel w stem folder lines).panic = none ∧
      (transpile fuel w stem folder lines).text = (gs.map fun g => escapeText (groupText g) ++ str! "\n\n").flatten :=
  prose_output fuel w stem folder lines gs hne hg (fun g h => prose_group (hp g h)) hb hfuel hfull

theorem mem_tightList {d : EnumDelims} {k : EnumKind} {n : Nat} {ls : List Str} {x : Str} (h : x ∈ tightList d k n ls) :
    ∃ i l, n ≤ i ∧ i < n + ls.length ∧ l ∈ ls ∧ x = numeral d ⟨k, i, false⟩ ++ ' ' :: l := by
  induction ls generalizing n with
  | nil => cases h
  | cons l ls ih =>
    rcases List.mem_cons.mp h with rfl | h
    · exact ⟨n, l, Nat.le_refl _, by simp, by simp, rfl⟩
    · obtain ⟨i, l', h1, h2, h3, h4⟩ := ih h
      exact ⟨i, l', by omega, by simp; omega, by simp [h3], h4⟩

theorem numeral_mem {d : EnumDelims} {c : Counter} {x : Char} (h : x ∈ numeral d c) : x ∈ c.text ∨ x ∈ ['(', ')', '.'] := by
  cases d <;> simp only [numeral, List.mem_cons, List.mem_append, List.not_mem_nil, or_false] at h <;> simp only [List.mem_cons, List.not_mem_nil, or_false] <;>
    tauto

/-- A line that starts with a numeral is a line of text. -/
theorem numeral_line (d : EnumDelims) {c : Counter} (hc : c.Ok) (ha : c.auto = false) {l : Str} (hl : TextLine l) (hm : markupFree l) :
    TextLine (numeral d c ++ ' ' :: l) ∧ markupFree (numeral d c ++ ' ' :: l) := by
  have hall : ∀ x ∈ c.text, x.isAlphanum = true := by
    intro x hx
    have := (counter_text hc).2 x hx
    rcases countClass_alnum this with rfl | h
    · rw [ha] at this
      have hk : c.kind ≠ .Automatic := by
        have := hc ha
        revert this
        cases c.kind <;> simp
      revert this hk
      cases c.kind <;> decide
    · exact h
  obtain ⟨y, t, e⟩ : ∃ y t, c.text = y :: t := by
    cases e : c.text with
    | nil => exact absurd e (counter_text hc).1
    | cons y t => exact ⟨y, t, rfl⟩
  have hy : y.isAlphanum = true := hall y (by rw [e]; simp)
  have hin : y ∈ numeral d c := by cases d <;> simp [numeral, e]
  refine ⟨⟨?_, ?_, ?_⟩, ?_⟩
  · obtain ⟨x, t, e, hx⟩ := number_front d hc
    refine ⟨x, ?_, (digit_alone hx).1⟩
    have : numeral d c ++ ' ' :: l = (Tag.number d c).text ++ l := by simp [Tag.text]
    rw [this, e]; rfl
  · rintro ⟨a, n, m, h1, h2⟩
    have : y ∈ List.replicate (n + 1) a ++ List.replicate m ' ' := by rw [← h2]; exact List.mem_append.mpr (.inl hin)
    rcases List.mem_append.mp this with h | h
    · rw [List.eq_of_mem_replicate h] at hy
      have : ∀ a ∈ adornments, a.isAlphanum = false := by decide
      rw [this a h1] at hy; cases hy
    · rw [List.eq_of_mem_replicate h] at hy
      revert hy; decide
  · intro h
    rcases List.mem_append.mp h with h | h
    · rcases numeral_mem h with h | h
      · have := hall _ h; revert this; decide
      · revert h; decide
    · rcases List.mem_cons.mp h with h | h
      · revert h; decide
      · exact hl.oneLine h
  · intro x hx
    rcases List.mem_append.mp hx with h | h
    · rcases numeral_mem h with h | h
      · have := hall _ h
        intro hx
        have : ∀ a ∈ markupChars, a.isAlphanum = false := by decide
        rw [this x hx] at *; contradiction
      · have : ∀ a ∈ ['(', ')', '.'], a ∉ markupChars := by decide
        exact this x h
    · rcases List.mem_cons.mp h with rfl | h
      · decide
      · exact hm x h

theorem tightList_crowded {d : EnumDelims} {k : EnumKind} {n : Nat} {ls : List Str} (h2 : 2 ≤ ls.length) (hn : 0 < n)
    (hc : ∀ i, n ≤ i → i < n + ls.length → Counter.Ok ⟨k, i, false⟩) (hl : ∀ l ∈ ls, TextLine l ∧ markupFree l) : Crowded (tightList d k n ls) := by
  constructor
  · obtain ⟨a, b, t, rfl⟩ : ∃ a b t, ls = a :: b :: t := by
      match ls, h2 with
      | a :: b :: t, _ => exact ⟨a, b, t, rfl⟩
    exact ⟨_, _, _, rfl, .other (hc n (Nat.le_refl _) (by simp)) (hc (n + 1) (by omega) (by simp)) rfl rfl (by simp; omega) (by simp)
      (hl a (by simp)).1 (hl b (by simp)).1⟩
  · intro x hx
    obtain ⟨i, l, h1, h2, h3, rfl⟩ := mem_tightList hx
    exact numeral_line d (hc i h1 h2) rfl (hl l h3).1 (hl l h3).2

/-- **C82** (violated) The items of an enumerated list of any kind, written without empty lines between them, are *not* a list: the whole document is
one paragraph with the numerals in its text. -/
theorem C82_violated (fuel : Nat) (w : WriterEnv) (stem folder : Str) (d : EnumDelims) (k : EnumKind) (n : Nat) (ls : List Str) (h2 : 2 ≤ ls.length)
    (hn : 0 < n) (hc : ∀ i, n ≤ i → i < n + ls.length → Counter.Ok ⟨k, i, false⟩) (hl : ∀ l ∈ ls, TextLine l ∧ markupFree l)
    (hb : ∀ l ∈ ls, '\\' ∉ l) (hfuel : ls.length < fuel) (hfull : w.fullDocument = false) :
    (∃ doc t, parseDocument fuel stem folder (tightList d k n ls) = .ok (.eof doc [.Body]) ∧ IsDoc doc.tree t ∧
      shapeOf t = .node .Document [plainShape 0 (tightList d k n ls)]) ∧
    (transpile fuel w stem folder (tightList d k n ls)).panic = none ∧
      (transpile fuel w stem folder (tightList d k n ls)).text = escapeText (groupText (tightList d k n ls)) ++ str! "\n\n" := by
  have hcr := tightList_crowded (d := d) h2 hn hc hl
  have hlen : (tightList d k n ls).length = ls.length := by
    clear hcr hc hl hfuel h2 hn hb
    induction ls generalizing n with
    | nil => rfl
    | cons l ls ih => simp [tightList, ih]
  have hne : tightList d k n ls ≠ [] := by
    intro e; rw [e] at hlen; simp at hlen; omega
  have hgr : Groups (tightList d k n ls) [tightList d k n ls] := by
    have := Groups.group [] (tightList d k n ls) [] [] (by simp) hne (fun l hl => ((crowded_prose hcr).1.1 l hl).not_blank) (by simp) (.blank [] (by simp))
    simpa using this
  have hback : ∀ l ∈ tightList d k n ls, '\\' ∉ l := by
    intro x hx
    obtain ⟨i, l, h1, h2, h3, rfl⟩ := mem_tightList hx
    intro h
    rcases List.mem_append.mp h with h | h
    · rcases numeral_mem h with h | h
      · have hk := hc i h1 h2
        rcases countClass_alnum ((counter_text hk).2 _ h) with h | h <;> revert h <;> decide
      · revert h; decide
    · rcases List.mem_cons.mp h with h | h
      · revert h; decide
      · exact hb l h3 h
  constructor
  · exact C82_paragraphs_partial fuel stem folder _ _ hne hgr (by simpa using .inr hcr) (by omega)
  · have := C82_output_partial fuel w stem folder _ _ hne hgr (by simpa using .inr hcr) (by simpa using hback) (by omega) hfull
    simpa using this

/-- A list of three items, and what comes out for it. -/
example (w : WriterEnv) (h : w.fullDocument = false) :
    (transpile 5 w [] [] [str! "1. flour", str! "2. eggs", str! "3. milk"]).text = str! "1. flour\n2. eggs\n3. milk\n\n" :=
  (C82_violated 5 w [] [] .Period .Arabic 1 [str! "flour", str! "eggs", str! "milk"] (by decide) (by decide) (by
    intro i h1 h2
    show _ → i < 2 ^ 64
    intro _
    simp at h2
    omega) (by decide +kernel) (by decide) (by decide) h).2.2.trans (by decide +kernel)

/-- A line of text that happens to start with a number, and ordinary text below it. -/
example : Unlisted (str! "1984. A novel") (str! "by George Orwell.") :=
  .prose (d := .Period) (c := ⟨.Arabic, 1984, false⟩) (l := str! "A novel") (by decide +kernel) (by decide +kernel) (by decide +kernel) (by decide +kernel)

/-- **C82 is false of the program for numbers that are too large:** a paragraph that starts with such a number lets the parse fail, and everything from
there on is lost without a message on the output; below another numbered line it is text, as the property says. -/
theorem C82_large_violated :
    (∀ line ∈ [str! "18446744073709551616. b", str! "mmmmm. b"],
      (transpile 60 ⟨false, fun _ => [], fun _ => [], id⟩ [] [] [str! "a", [], line, [], str! "c"]).panic = none ∧
      (transpile 60 ⟨false, fun _ => [], fun _ => [], id⟩ [] [] [str! "a", [], line, [], str! "c"]).text = str! "a\n\n") ∧
    ∀ line ∈ [str! "18446744073709551616. b", str! "mmmmm. b"],
      (transpile 60 ⟨false, fun _ => [], fun _ => [], id⟩ [] [] [str! "1. a", line, [], str! "c"]).text = str! "1. a\n" ++ line ++ str! "\n\nc\n\n" := by decide +kernel

end Rustla
