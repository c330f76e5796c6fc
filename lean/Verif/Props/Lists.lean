import Verif.Props.Quotes
import Verif.Spec.Lists
/-!
# Counted lists and field lists (C69, C70, C75)
-/
namespace Rustla
open Spec

/-- The items of a counted list. -/
def countedItems (d : EnumDelims) (k : EnumKind) (n : Nat) : List (Bool × Point) → Items
  | [] => .nil
  | (sign, x) :: xs => .item (.number d ⟨k, n, sign⟩) x.lines x.pieces x.gap x.body (countedItems d k (n + 1) xs)

/-- The items of a field list. -/
def fieldItems : List FieldEntry → Items
  | [] => .nil
  | x :: xs => .item (.field x.name x.width) x.point.lines x.point.pieces x.point.gap x.point.body (fieldItems xs)

theorem tag_source (m : Tag) (x : Point) : m.lines 0 x.lines ++ x.gap ++ x.body.lines (0 + m.width) = x.source m.text m.width := by
  unfold Point.source Tag.lines
  cases x.lines <;> simp [indentLine]

theorem counted_lines (d : EnumDelims) (k : EnumKind) : ∀ (xs : List (Bool × Point)) (n : Nat), (countedItems d k n xs).lines 0 = countedLines d k n xs
  | [], _ => rfl
  | (sign, x) :: xs, n => by
    simp only [countedItems, Items.lines, countedLines, tag_source (.number d ⟨k, n, sign⟩) x, counted_lines d k xs (n + 1)]
    rfl

theorem field_lines : ∀ xs : List FieldEntry, (fieldItems xs).lines 0 = fieldLines xs
  | [] => rfl
  | x :: xs => by
    simp only [fieldItems, Items.lines, fieldLines, tag_source (.field x.name x.width) x.point, field_lines xs]
    rfl

theorem counted_shapes (d : EnumDelims) (k : EnumKind) : ∀ (xs : List (Bool × Point)) (n : Nat), (countedItems d k n xs).shapes 0 = countedShapes d k n xs
  | [], _ => rfl
  | (sign, x) :: xs, n => by
    simp only [countedItems, Items.shapes, countedShapes, counted_shapes d k xs (n + 1), Point.shape, Tag.item, Tag.width, Nat.zero_add]

theorem field_shapes : ∀ xs : List FieldEntry, (fieldItems xs).shapes 0 = fieldShapes xs
  | [] => rfl
  | x :: xs => by
    simp only [fieldItems, Items.shapes, fieldShapes, field_shapes xs, Point.shape, Tag.item, Tag.width, Nat.zero_add]

mutual
/-- The text of tidy blocks does not depend on their indentation. -/
theorem tidy_text (w : WriterEnv) : ∀ (B : Blocks) (i j : Nat) (fig : Bool), B.Tidy → B.text w i fig = B.text w j fig
  | .nil, _, _, _, _ => rfl
  | .para _ _ _ rest, i, j, _, h => by simp only [Blocks.text, tidy_text w rest i j false h.2]
  | .list items rest, i, j, _, h => by simp only [Blocks.text, tidy_latex w items i j h.1, tidy_text w rest i j false h.2]
  | .leaf _ _ rest, i, j, _, h => by simp only [Blocks.text, tidy_text w rest i j false h.2.2]
  | .box .., _, _, _, h => h.elim
  | .classed .., _, _, _, h => h.elim
  | .anchor .., _, _, _, h => h.elim
  | .part _ rest, i, j, _, h => by simp only [Blocks.text, tidy_text w rest i j false h.2]
  | .quote k body _ rest, i, j, _, h => by
    simp only [Blocks.text, tidy_text w body (i + (k + 1)) (j + (k + 1)) false h.1, tidy_text w rest i j false h.2.2]
  | .defs .., _, _, _, h => h.elim
  | .note .., _, _, _, h => h.elim
  | .aside .., _, _, _, h => h.elim
theorem tidy_latex (w : WriterEnv) : ∀ (I : Items) (i j : Nat), I.Tidy → I.latex w i = I.latex w j
  | .nil, _, _, _ => rfl
  | .item m _ _ _ body rest, i, j, h => by
    simp only [Items.latex, tidy_text w body (i + m.width) (j + m.width) false h.2.1, tidy_latex w rest i j h.2.2]
end

theorem counted_latex (w : WriterEnv) (d : EnumDelims) (k : EnumKind) : ∀ (xs : List (Bool × Point)) (n : Nat), (∀ x ∈ xs, x.2.body.Tidy) →
    (countedItems d k n xs).latex w 0 = pointsLatex w (xs.map (·.2))
  | [], _, _ => rfl
  | (sign, x) :: xs, n, h => by
    simp only [countedItems, Items.latex, List.map_cons, pointsLatex, counted_latex w d k xs (n + 1) (fun y hy => h y (by simp [hy])), Tag.opening, Tag.closing,
      List.append_nil, Blocks.latex, tidy_text w x.body (0 + (Tag.number d ⟨k, n, sign⟩).width) 0 false (h (sign, x) (by simp))]

theorem field_latex (w : WriterEnv) : ∀ xs : List FieldEntry, (fieldItems xs).latex w 0 = fieldsLatex w xs
  | [] => rfl
  | x :: xs => by
    simp only [fieldItems, Items.latex, fieldsLatex, field_latex w xs, Tag.opening, Tag.closing, Blocks.latex, Tag.width, Nat.zero_add]

theorem counted_count (d : EnumDelims) (k : EnumKind) : ∀ (xs : List (Bool × Point)) (n : Nat), (countedItems d k n xs).count = xs.length
  | [], _ => rfl
  | _ :: xs, n => congrArg (· + 1) (counted_count d k xs (n + 1))

theorem counted_ok (d : EnumDelims) (k : EnumKind) : ∀ (xs : List (Bool × Point)) (n : Nat), (∀ x ∈ xs, x.2.Ok ∧ x.2.body.Tidy) →
    Spaced xs → Counted k n xs →
    (countedItems d k n xs).Ok ∧ (countedItems d k n xs).chained ∧ (countedItems d k n xs).height ≤ 7
  | [], _, _, _, _ => ⟨trivial, trivial, Nat.zero_le _⟩
  | (sign, x) :: xs, n, h, hs, hn => by
    obtain ⟨k1, k2, k3⟩ := counted_ok d k xs (n + 1) (fun y hy => h y (by simp [hy])) hs.2 hn.2
    obtain ⟨⟨h1, h2, h3, h4, h5⟩, ht⟩ := h (sign, x) (by simp)
    refine ⟨⟨hn.1, h1, h2, h3, fun _ => ⟨fun e e1 m hm => ?_, ht⟩, h4, k1⟩, ⟨?_, k2⟩,
      by simp only [countedItems, Items.height]; simp only at h5; omega⟩
    · cases xs with
      | nil => simp [countedItems, Items.first] at hm
      | cons y ys =>
        obtain rfl : Tag.number d ⟨k, n + 1, y.1⟩ = m := by simpa [countedItems, Items.first] using hm
        exact ⟨rfl, hs.1 e e1 y rfl⟩
    · intro m hm
      cases xs with
      | nil => simp [countedItems, Items.first] at hm
      | cons y ys =>
        obtain rfl : Tag.number d ⟨k, n + 1, y.1⟩ = m := by simpa [countedItems, Items.first] using hm
        exact ⟨rfl, rfl, rfl⟩

theorem field_ok : ∀ xs : List FieldEntry, (∀ x ∈ xs, x.Ok) → (fieldItems xs).Ok ∧ (fieldItems xs).chained ∧ (fieldItems xs).height ≤ 7
  | [], _ => ⟨trivial, trivial, Nat.zero_le _⟩
  | x :: xs, h => by
    obtain ⟨k1, k2, k3⟩ := field_ok xs fun y hy => h y (by simp [hy])
    obtain ⟨n1, n2, n3, n4, h1, h2, h3, h4, h5⟩ := h x (by simp)
    refine ⟨⟨⟨n1, n2, n3, n4⟩, h1, h2, h3, fun e => e.elim, h4, k1⟩, ⟨?_, k2⟩, by simp only [fieldItems, Items.height]; omega⟩
    intro m hm
    cases xs with
    | nil => simp [fieldItems, Items.first] at hm
    | cons y ys =>
      obtain rfl : Tag.field y.name y.width = m := by simpa [fieldItems, Items.first] using hm
      exact trivial

/-- A document that consists of a list. -/
def listPaper (I : Items) : Paper := ⟨[], .list I .nil, [], []⟩

theorem listPaper_ok {I : Items} (hne : I ≠ .nil) (h : I.Ok) (hc : I.chained) (ho : ∀ m, I.first = some m → m.opens) (hh : I.height ≤ 7) : (listPaper I).Ok :=
  ⟨by simp [listPaper], ⟨hne, h, ⟨hc, ho⟩, fun _ _ _ e => by simp [Blocks.first] at e, fun _ => .inl rfl, id, trivial⟩,
    trivial, by simp [listPaper], trivial, by simp [Paper.height, Paper.bodies, listPaper, Blocks.height]; omega,
    by have := cost_height_items I; simp [Paper.cost, Paper.bodies, Paper.styles, listPaper, Blocks.cost]; omega⟩

theorem items_lines_ne {I : Items} (hne : I ≠ .nil) (h : I.Ok) : I.lines 0 ≠ [] := by
  cases I with
  | nil => exact absurd rfl hne
  | item m g ps gap body rest =>
    have hg : g ≠ [] := h.2.1.notEmpty
    cases g with
    | nil => exact absurd rfl hg
    | cons l ls => simp [Items.lines, Tag.lines]

theorem list_nodes (fuel : Nat) (stem folder : Str) {I : Items} {m : Tag} (hm : I.first = some m) (h : I.Ok) (hc : I.chained) (ho : m.opens) (hh : I.height ≤ 7)
    (hfuel : roundsBound (textSize (I.lines 0)) ≤ fuel) :
    ∃ doc stack t, parseDocument fuel stem folder (I.lines 0) = .ok (.eof doc stack) ∧ IsDoc doc.tree t ∧
      shapeOf t = .node .Document [.node (m.list 0 I.count) (I.shapes 0)] := by
  have hne : I ≠ .nil := by rintro rfl; simp [Items.first] at hm
  have e : (listPaper I).lines = I.lines 0 := by simp [listPaper, Paper.lines, Blocks.lines]
  have := C56_documents fuel stem folder (listPaper I) (listPaper_ok hne h hc (fun m' h' => by rw [hm] at h'; obtain rfl := Option.some.inj h'; exact ho) hh) (by rw [e]; exact items_lines_ne hne h) (by rw [e]; exact hfuel)
  rw [e] at this
  simpa [Paper.shape, listPaper, Blocks.shapes, withLevels, forest, listShapes, hm] using this

theorem list_output (fuel : Nat) (w : WriterEnv) (stem folder : Str) {I : Items} {m : Tag} (hm : I.first = some m) (h : I.Ok) (hc : I.chained) (ho : m.opens)
    (hh : I.height ≤ 7) (hfuel : roundsBound (textSize (I.lines 0)) ≤ fuel) (hfull : w.fullDocument = false) :
    (transpile fuel w stem folder (I.lines 0)).panic = none ∧
      (transpile fuel w stem folder (I.lines 0)).text =
        str! "\\begin{" ++ m.environment ++ str! "}\n" ++ I.latex w 0 ++ str! "\\end{" ++ m.environment ++ str! "}\n\n" := by
  have hne : I ≠ .nil := by rintro rfl; simp [Items.first] at hm
  have e : (listPaper I).lines = I.lines 0 := by simp [listPaper, Paper.lines, Blocks.lines]
  have := C56_output fuel w stem folder (listPaper I) (listPaper_ok hne h hc (fun m' h' => by rw [hm] at h'; obtain rfl := Option.some.inj h'; exact ho) hh) (by rw [e]; exact items_lines_ne hne h) (by rw [e]; exact hfuel) hfull
  rw [e] at this
  simpa [Paper.latex, listPaper, Blocks.text, withLevels, Blocks.latex, listLatex, hm] using this

theorem counted_first {d : EnumDelims} {k : EnumKind} {n : Nat} {xs : List (Bool × Point)} (hne : xs ≠ [])
    (ho : xs.head?.map (·.1) = some true → k = .Arabic ∧ n = 1) :
    ∃ c : Counter, (countedItems d k n xs).first = some (.number d c) ∧ c.kind = k ∧ c.value = n ∧ (Tag.number d c).opens := by
  cases xs with
  | nil => exact absurd rfl hne
  | cons x xs => exact ⟨⟨k, n, x.1⟩, rfl, rfl, rfl, fun e => ho (by simpa using e)⟩

/-- **C75.** Items that are counted in one system with the same delimiters become the items of one list, which records the system, the first
number and how many items there are; a number sign in front of an item stands for the number that is next. -/
theorem C75_nodes (fuel : Nat) (stem folder : Str) (d : EnumDelims) (k : EnumKind) (n : Nat) (xs : List (Bool × Point)) (hne : xs ≠ [])
    (h : ∀ x ∈ xs, x.2.Ok ∧ x.2.body.Tidy) (hs : Spaced xs) (hn : Counted k n xs)
    (ho : xs.head?.map (·.1) = some true → k = .Arabic ∧ n = 1)
    (hfuel : roundsBound (textSize (countedLines d k n xs)) ≤ fuel) :
    ∃ doc stack t, parseDocument fuel stem folder (countedLines d k n xs) = .ok (.eof doc stack) ∧ IsDoc doc.tree t ∧
      shapeOf t = .node .Document [.node (.EnumeratedList d k n xs.length 0) (countedShapes d k n xs)] := by
  obtain ⟨k1, k2, k3⟩ := counted_ok d k xs n h hs hn
  obtain ⟨c, hf, rfl, rfl, hop⟩ := counted_first (d := d) hne ho
  have := list_nodes fuel stem folder hf k1 k2 hop k3 (by rw [counted_lines]; exact hfuel)
  rw [counted_lines, counted_shapes, counted_count] at this
  exact this

/-- **C75.** The output for it.  It contains neither the system nor the numbers: LaTeX counts from one in its own way. -/
theorem C75_output (fuel : Nat) (w : WriterEnv) (stem folder : Str) (d : EnumDelims) (k : EnumKind) (n : Nat) (xs : List (Bool × Point)) (hne : xs ≠ [])
    (h : ∀ x ∈ xs, x.2.Ok ∧ x.2.body.Tidy) (hs : Spaced xs) (hn : Counted k n xs)
    (ho : xs.head?.map (·.1) = some true → k = .Arabic ∧ n = 1)
    (hfuel : roundsBound (textSize (countedLines d k n xs)) ≤ fuel) (hfull : w.fullDocument = false) :
    (transpile fuel w stem folder (countedLines d k n xs)).panic = none ∧
      (transpile fuel w stem folder (countedLines d k n xs)).text =
        str! "\\begin{enumerate}\n" ++ pointsLatex w (xs.map (·.2)) ++ str! "\\end{enumerate}\n\n" := by
  obtain ⟨k1, k2, k3⟩ := counted_ok d k xs n h hs hn
  obtain ⟨c, hf, rfl, rfl, hop⟩ := counted_first (d := d) hne ho
  have := list_output fuel w stem folder hf k1 k2 hop k3 (by rw [counted_lines]; exact hfuel) hfull
  rw [counted_lines, counted_latex w d _ xs _ (fun x hx => (h x hx).2)] at this
  simpa [Tag.environment] using this

theorem numbered_lines (d : EnumDelims) : ∀ (xs : List Point) (n : Nat), countedLines d .Arabic n (xs.map (false, ·)) = numberedLines d n xs
  | [], _ => rfl
  | x :: xs, n => by simp only [List.map_cons, countedLines, numberedLines, numbered_lines d xs (n + 1)]

theorem numbered_shapes (d : EnumDelims) : ∀ (xs : List Point) (n : Nat), countedShapes d .Arabic n (xs.map (false, ·)) = numberedShapes d n xs
  | [], _ => rfl
  | x :: xs, n => by simp only [List.map_cons, countedShapes, numberedShapes, numbered_shapes d xs (n + 1)]

theorem numbered_counted : ∀ (xs : List Point) (n : Nat), n + xs.length ≤ 2 ^ 64 → Counted .Arabic n (xs.map (false, ·))
  | [], _, _ => trivial
  | x :: xs, n, h => by
    simp only [List.length_cons] at h
    exact ⟨fun _ => by show n < 2 ^ 64; omega, numbered_counted xs (n + 1) (by omega)⟩

theorem numbered_spaced : ∀ {xs : List Point}, Separated xs → Spaced (xs.map (false, ·))
  | [], _ => trivial
  | x :: xs, h => ⟨fun e e1 => by rw [h.1 e e1]; simp, numbered_spaced h.2⟩

theorem numbered_points (xs : List Point) : (xs.map fun x => (false, x)).map (·.2) = xs := by
  rw [List.map_map]; exact List.map_id xs

/-- **C69.** Items with consecutive numbers and the same delimiters become the items of one numbered list, which records the first number and
how many items there are; every item contains exactly its paragraph and the blocks that are aligned with it. -/
theorem C69_nodes (fuel : Nat) (stem folder : Str) (d : EnumDelims) (n : Nat) (xs : List Point) (hne : xs ≠ [])
    (h : ∀ x ∈ xs, x.Ok ∧ x.body.Tidy) (hs : Separated xs) (hn : n + xs.length ≤ 2 ^ 64)
    (hfuel : roundsBound (textSize (numberedLines d n xs)) ≤ fuel) :
    ∃ doc stack t, parseDocument fuel stem folder (numberedLines d n xs) = .ok (.eof doc stack) ∧ IsDoc doc.tree t ∧
      shapeOf t = .node .Document [.node (.EnumeratedList d .Arabic n xs.length 0) (numberedShapes d n xs)] := by
  rw [← numbered_lines] at hfuel ⊢
  rw [← numbered_shapes]
  have := C75_nodes fuel stem folder d .Arabic n (xs.map (false, ·)) (by simpa using hne)
    (by intro x hx; obtain ⟨y, hy, rfl⟩ := List.mem_map.mp hx; exact h y hy) (numbered_spaced hs) (numbered_counted xs n hn)
    (by cases xs <;> simp) hfuel
  rwa [List.length_map] at this

/-- **C69.** The output for it.  The number of the first item is not in it: LaTeX counts from one. -/
theorem C69_output (fuel : Nat) (w : WriterEnv) (stem folder : Str) (d : EnumDelims) (n : Nat) (xs : List Point) (hne : xs ≠ [])
    (h : ∀ x ∈ xs, x.Ok ∧ x.body.Tidy) (hs : Separated xs) (hn : n + xs.length ≤ 2 ^ 64)
    (hfuel : roundsBound (textSize (numberedLines d n xs)) ≤ fuel) (hfull : w.fullDocument = false) :
    (transpile fuel w stem folder (numberedLines d n xs)).panic = none ∧
      (transpile fuel w stem folder (numberedLines d n xs)).text =
        str! "\\begin{enumerate}\n" ++ pointsLatex w xs ++ str! "\\end{enumerate}\n\n" := by
  rw [← numbered_lines] at hfuel ⊢
  have := C75_output fuel w stem folder d .Arabic n (xs.map (false, ·)) (by simpa using hne)
    (by intro x hx; obtain ⟨y, hy, rfl⟩ := List.mem_map.mp hx; exact h y hy) (numbered_spaced hs) (numbered_counted xs n hn)
    (by cases xs <;> simp) hfuel hfull
  rwa [numbered_points] at this

/-- **C70.** Fields become the items of one field list, in order and with their names; every item contains exactly the paragraph behind the name
and the blocks that are indented like it. -/
theorem C70_nodes (fuel : Nat) (stem folder : Str) (xs : List FieldEntry) (hne : xs ≠ []) (h : ∀ x ∈ xs, x.Ok)
    (hfuel : roundsBound (textSize (fieldLines xs)) ≤ fuel) :
    ∃ doc stack t, parseDocument fuel stem folder (fieldLines xs) = .ok (.eof doc stack) ∧ IsDoc doc.tree t ∧
      shapeOf t = .node .Document [.node (.FieldList 0) (fieldShapes xs)] := by
  obtain ⟨k1, k2, k3⟩ := field_ok xs h
  obtain ⟨m, hf, hm, ho⟩ : ∃ m, (fieldItems xs).first = some m ∧ m.list 0 (fieldItems xs).count = .FieldList 0 ∧ m.opens := by
    cases xs with
    | nil => exact absurd rfl hne
    | cons x xs => exact ⟨_, rfl, rfl, trivial⟩
  have := list_nodes fuel stem folder hf k1 k2 ho k3 (by rw [field_lines]; exact hfuel)
  rw [hm, field_lines, field_shapes] at this
  exact this

/-- **C70.** The output for them. -/
theorem C70_output (fuel : Nat) (w : WriterEnv) (stem folder : Str) (xs : List FieldEntry) (hne : xs ≠ []) (h : ∀ x ∈ xs, x.Ok)
    (hfuel : roundsBound (textSize (fieldLines xs)) ≤ fuel) (hfull : w.fullDocument = false) :
    (transpile fuel w stem folder (fieldLines xs)).panic = none ∧
      (transpile fuel w stem folder (fieldLines xs)).text =
        str! "\\begin{itemize}\n" ++ fieldsLatex w xs ++ str! "\\end{itemize}\n\n" := by
  obtain ⟨k1, k2, k3⟩ := field_ok xs h
  obtain ⟨m, hf, hm, ho⟩ : ∃ m, (fieldItems xs).first = some m ∧ m.environment = str! "itemize" ∧ m.opens := by
    cases xs with
    | nil => exact absurd rfl hne
    | cons x xs => exact ⟨_, rfl, rfl, trivial⟩
  have := list_output fuel w stem folder hf k1 k2 ho k3 (by rw [field_lines]; exact hfuel) hfull
  rw [hm, field_lines, field_latex] at this
  simpa using this

/-! ## Examples -/

/-- Two items, the first with two lines and the second with a list in it. -/
def samplePoints : List Point :=
  [⟨[str! "amet.", str! "*Sit*"], [.word (str! "amet."), .space (str! "\n"), .emph (str! "Sit")], [[]], .nil⟩,
   ⟨[str! "amet."], [.word (str! "amet.")], [[]],
    .list (.item (.bullet '-') [str! "amet."] [.word (str! "amet.")] [[]] (.para [str! "amet."] [.word (str! "amet.")] [[]] .nil) .nil) .nil⟩]

example : numberedLines .Parens 9 samplePoints =
    [str! "(9) amet.", str! "    *Sit*", [], str! "(10) amet.", [], str! "     - amet.", [], str! "       amet.", []] := by decide +kernel

theorem samplePoints_ok : (∀ x ∈ samplePoints, x.Ok ∧ x.body.Tidy) ∧ Separated samplePoints := by
  have h1 : Para [str! "amet.", str! "*Sit*"] [.word (str! "amet."), .space (str! "\n"), .emph (str! "Sit")] := by decide +kernel
  have h2 : Para [str! "amet."] [.word (str! "amet.")] := by decide +kernel
  refine ⟨fun x hx => ?_, by decide, by decide, trivial⟩
  rcases List.mem_cons.mp hx with rfl | hx
  · exact ⟨⟨h1, by decide, by decide, trivial, by decide⟩, trivial⟩
  · obtain rfl := List.mem_singleton.mp hx
    exact ⟨⟨h2, by decide, by decide, by decide +kernel, by decide⟩, by decide⟩

/-- The hypotheses of C69 are met. -/
example : (transpile (roundsBound (textSize (numberedLines .Parens 9 samplePoints))) sampleWriter [] [] (numberedLines .Parens 9 samplePoints)).text =
    str! "\\begin{enumerate}\n\\item amet.\n\\textit{Sit}\n\n\\item amet.\n\n\\begin{itemize}\n\\item amet.\n\namet.\n\n\\end{itemize}\n\n\\end{enumerate}\n\n" :=
  (C69_output _ sampleWriter [] [] .Parens 9 samplePoints (by decide) samplePoints_ok.1 samplePoints_ok.2 (by decide) (Nat.le_refl _) rfl).2.trans
    (by decide +kernel)

/-- Items of several lines need no blank lines between them. -/
example : (transpile 60 sampleWriter [] [] (numberedLines .Period 1 (samplePoints.map fun x => { x with lines := [str! "amet.", str! "*Sit*"], gap := [], body := .nil }))).text =
    str! "\\begin{enumerate}\n\\item amet.\n\\textit{Sit}\n\n\\item amet.\n\\textit{Sit}\n\n\\end{enumerate}\n\n" := by
  decide +kernel

/-- Items that are counted by letters, with number signs in place of the letters that are Roman numerals as well. -/
def sampleCounted : List (Bool × Point) :=
  (samplePoints ++ samplePoints ++ samplePoints).zip [false, false, true, true, false, false] |>.map fun x => (x.2, x.1)

example : countedLines .RParen .UpperAlpha 1 sampleCounted =
    [str! "A) amet.", str! "   *Sit*", [], str! "B) amet.", [], str! "   - amet.", [], str! "     amet.", [],
     str! "#) amet.", str! "   *Sit*", [], str! "#) amet.", [], str! "   - amet.", [], str! "     amet.", [],
     str! "E) amet.", str! "   *Sit*", [], str! "F) amet.", [], str! "   - amet.", [], str! "     amet.", []] := by decide +kernel

theorem sampleCounted_ok : (∀ x ∈ sampleCounted, x.2.Ok ∧ x.2.body.Tidy) ∧ Spaced sampleCounted := by
  have hs := samplePoints_ok.1
  refine ⟨fun x hx => hs x.2 ?_, by decide, by decide, by decide, by decide, by decide, by decide, trivial⟩
  obtain ⟨y, hy, rfl⟩ := List.mem_map.mp hx
  have := (List.of_mem_zip hy).1
  simpa using this

/-- The hypotheses of C75 are met. -/
example : (transpile (roundsBound (textSize (countedLines .RParen .UpperAlpha 1 sampleCounted))) sampleWriter [] [] (countedLines .RParen .UpperAlpha 1 sampleCounted)).text =
    str! "\\begin{enumerate}\n" ++ pointsLatex sampleWriter (sampleCounted.map (·.2)) ++ str! "\\end{enumerate}\n\n" :=
  (C75_output _ sampleWriter [] [] .RParen .UpperAlpha 1 sampleCounted (by decide) sampleCounted_ok.1 sampleCounted_ok.2 ⟨by decide, by decide, by decide, by decide, by decide, by decide, trivial⟩ (by decide)
    (Nat.le_refl _) rfl).2

/-- Items with number signs, without blank lines between them. -/
def sampleSigns : List (Bool × Point) :=
  [(true, ⟨[str! "amet."], [.word (str! "amet.")], [], .nil⟩), (true, ⟨[str! "*Sit*"], [.emph (str! "Sit")], [], .nil⟩),
   (true, ⟨[str! "amet."], [.word (str! "amet.")], [], .nil⟩)]

theorem sampleSigns_ok : (∀ x ∈ sampleSigns, x.2.Ok ∧ x.2.body.Tidy) ∧ Spaced sampleSigns := by
  have h1 : Para [str! "amet."] [.word (str! "amet.")] := by decide +kernel
  have h2 : Para [str! "*Sit*"] [.emph (str! "Sit")] := by decide +kernel
  refine ⟨fun x hx => ?_, by decide, by decide, by decide, trivial⟩
  simp only [sampleSigns, List.mem_cons, List.not_mem_nil, or_false] at hx
  rcases hx with rfl | rfl | rfl
  · exact ⟨⟨h1, by decide, by decide, trivial, by decide⟩, trivial⟩
  · exact ⟨⟨h2, by decide, by decide, trivial, by decide⟩, trivial⟩
  · exact ⟨⟨h1, by decide, by decide, trivial, by decide⟩, trivial⟩

/-- They are the items of one list. -/
example : countedLines .Period .Arabic 1 sampleSigns = [str! "#. amet.", str! "#. *Sit*", str! "#. amet."] ∧
    (transpile (roundsBound (textSize (countedLines .Period .Arabic 1 sampleSigns))) sampleWriter [] [] (countedLines .Period .Arabic 1 sampleSigns)).text =
      str! "\\begin{enumerate}\n\\item amet.\n\n\\item \\textit{Sit}\n\n\\item amet.\n\n\\end{enumerate}\n\n" :=
  ⟨by decide +kernel,
   (C75_output _ sampleWriter [] [] .Period .Arabic 1 sampleSigns (by decide) sampleSigns_ok.1 sampleSigns_ok.2 ⟨by decide, by decide, by decide, trivial⟩ (by decide)
    (Nat.le_refl _) rfl).2.trans (by decide +kernel)⟩

/-- Roman numerals from 1998, and number signs from one. -/
example : countedLines .Period .LowerRoman 1998 (samplePoints.map (false, ·)) =
      [str! "mcmxcviii. amet.", str! "           *Sit*", [], str! "mcmxcix. amet.", [], str! "         - amet.", [], str! "           amet.", []] ∧
    Counted .LowerRoman 1998 (samplePoints.map (false, ·)) ∧
    countedLines .Parens .Arabic 1 (samplePoints.map (true, ·)) =
      [str! "(#) amet.", str! "    *Sit*", [], str! "(#) amet.", [], str! "    - amet.", [], str! "      amet.", []] ∧
    Counted .Arabic 1 (samplePoints.map (true, ·)) := by
  refine ⟨by decide +kernel, ⟨by decide, by decide, trivial⟩, by decide +kernel, ⟨by decide, by decide, trivial⟩⟩

/-- **C75 fails for letters that are Roman numerals.** The items `a.` to `e.` become four lists, because `c` and `d` are read as a hundred and
as five hundred, and every one of them is counted from one in the output. -/
theorem C75_letters_violated :
    (transpile 60 sampleWriter [] [] [str! "a. A", [], str! "b. B", [], str! "c. C", [], str! "d. D", [], str! "e. E"]).text =
      str! "\\begin{enumerate}\n\\item A\n\n\\item B\n\n\\end{enumerate}\n\n\\begin{enumerate}\n\\item C\n\n\\end{enumerate}\n\n\\begin{enumerate}\n\\item D\n\n\\end{enumerate}\n\n\\begin{enumerate}\n\\item E\n\n\\end{enumerate}\n\n" :=
  by decide +kernel

/-- **C75 fails for a number behind a number sign without blank lines.** The rest of the document is dropped. -/
theorem C75_sign_violated :
    (transpile 60 sampleWriter [] [] [str! "1. A", str! "#. B", str! "3. C", [], str! "D"]).text =
      str! "\\begin{enumerate}\n\\item A\n\n\\end{enumerate}\n\n" := by
  decide +kernel

/-- Two fields, the first with an indentation of its own. -/
def sampleFields : List FieldEntry :=
  [⟨[.word (str! "Sit")], 2, samplePoints.headD ⟨[], [], [], .nil⟩⟩,
   ⟨[.word (str! "amet"), .space (str! " "), .word (str! "5")], 9, ⟨[str! "amet."], [.word (str! "amet.")], [[]],
      .leaf (.image ⟨str! "image", str! "a.png", []⟩) [[]] .nil⟩⟩]

example : fieldLines sampleFields =
    [str! ":Sit: amet.", str! "  *Sit*", [], str! ":amet 5: amet.", [], str! "         .. image:: a.png", []] := by decide +kernel

theorem sampleFields_ok : ∀ x ∈ sampleFields, x.Ok := by
  intro x hx
  rcases List.mem_cons.mp hx with rfl | hx
  · exact ⟨by decide +kernel, by decide, by decide, by decide, (samplePoints_ok.1 _ (by simp [samplePoints])).1⟩
  · obtain rfl := List.mem_singleton.mp hx
    exact ⟨by decide +kernel, by decide, by decide, by decide, by decide +kernel, by decide, by decide, by decide +kernel, by decide⟩

/-- The hypotheses of C70 are met. -/
example : (transpile (roundsBound (textSize (fieldLines sampleFields))) sampleWriter [] [] (fieldLines sampleFields)).text =
    str! "\\begin{itemize}\n\\item \\textbf{Sit}\n\namet.\n\\textit{Sit}\n\n\n\\item \\textbf{amet 5}\n\namet.\n\n\\includegraphics{a.png}\n\n\\end{itemize}\n\n" :=
  (C70_output _ sampleWriter [] [] sampleFields (by decide) sampleFields_ok (Nat.le_refl _) rfl).2.trans (by decide +kernel)

/-- A document with lists of all kinds in each other and behind each other. -/
def listedPaper : Paper where
  lead := [[]]
  pre := .list (.item (.bullet '*') [str! "amet."] [.word (str! "amet.")] [[]]
      (.list (.item (.number .Period ⟨.Arabic, 7, false⟩) [str! "amet."] [.word (str! "amet.")] [[]]
          (.list (.item (.field [.word (str! "sit")] 6) [str! "amet."] [.word (str! "amet.")] [] .nil .nil)
            (.para [str! "amet."] [.word (str! "amet.")] [[]] .nil))
        (.item (.number .Period ⟨.Arabic, 8, false⟩) [str! "amet."] [.word (str! "amet.")] [[]] .nil .nil))
      (.list (.item (.number .RParen ⟨.Arabic, 9, false⟩) [str! "amet."] [.word (str! "amet.")] [[]] .nil .nil)
      (.list (.item (.field [.word (str! "sit")] 6) [str! "amet."] [.word (str! "amet.")] [] .nil .nil)
      (.list (.item (.bullet '*') [str! "amet."] [.word (str! "amet.")] [[]] .nil .nil) .nil))))
    .nil) .nil
  secs := [
    { title := str! "Sit", char := '=', over := false, len := 3, gap := [],
      body := .list (.item (.number .Period ⟨.Arabic, 10, false⟩) [str! "amet."] [.word (str! "amet.")] [] .nil .nil) .nil }]

example : listedPaper.lines =
    [[], str! "* amet.", [], str! "  7. amet.", [], str! "     :sit: amet.", str! "     amet.", [], str! "  8. amet.", [], str! "  9) amet.", [],
     str! "  :sit: amet.", str! "  * amet.", [], str! "Sit", str! "===", str! "10. amet."] := by decide +kernel

/-- The hypotheses of C56 are met by it. -/
example : (transpile (roundsBound (textSize listedPaper.lines)) sampleWriter [] [] listedPaper.lines).text =
      str! "\\begin{itemize}\n\\item amet.\n\n\\begin{enumerate}\n\\item amet.\n\n\\begin{itemize}\n\\item \\textbf{sit}\n\namet.\n\n\n\\end{itemize}\n\namet.\n\n\\item amet.\n\n\\end{enumerate}\n\n\\begin{enumerate}\n\\item amet.\n\n\\end{enumerate}\n\n\\begin{itemize}\n\\item \\textbf{sit}\n\namet.\n\n\n\\end{itemize}\n\n\\begin{itemize}\n\\item amet.\n\n\\end{itemize}\n\n\\end{itemize}\n\n\\rstlabel{sit}\n\\chapter{Sit}\n\n\\begin{enumerate}\n\\item amet.\n\n\\end{enumerate}\n\n" :=
  (C56_output _ sampleWriter [] [] listedPaper (by decide +kernel) (by decide) (Nat.le_refl _) rfl).2.trans (by decide +kernel)

/-- **The first number of a list is lost.** Lists that are numbered from different numbers and with different delimiters have the same output. -/
theorem C69_start_lost (w : WriterEnv) (hfull : w.fullDocument = false) (d d' : EnumDelims) (n n' : Nat) (xs : List Point) (hne : xs ≠ [])
    (h : ∀ x ∈ xs, x.Ok ∧ x.body.Tidy) (hs : Separated xs) (hn : n + xs.length ≤ 2 ^ 64) (hn' : n' + xs.length ≤ 2 ^ 64) :
    (transpile (roundsBound (textSize (numberedLines d n xs))) w [] [] (numberedLines d n xs)).text =
      (transpile (roundsBound (textSize (numberedLines d' n' xs))) w [] [] (numberedLines d' n' xs)).text := by
  rw [(C69_output _ w [] [] d n xs hne h hs hn (Nat.le_refl _) hfull).2, (C69_output _ w [] [] d' n' xs hne h hs hn' (Nat.le_refl _) hfull).2]

/-- **C69 fails for directives.** A note in a numbered item takes the paragraph behind it as well, because the item is read by a parser of its
own and the note compares indentations that are counted from different margins; the blocks of other directives become quotes. -/
theorem C69_directive_violated :
    (transpile 60 sampleWriter [] [] [str! "1. a", [], str! "   .. note::", [], str! "      b", [], str! "   x", [], str! "2. c"]).text =
      str! "\\begin{enumerate}\n\\item a\n\n\\begin{note}\nb\n\nx\n\n\\end{note}\n\n\\item c\n\n\\end{enumerate}\n\n" ∧
    (transpile 60 sampleWriter [] [] [str! "1. a", [], str! "   .. only:: html", [], str! "      b", [], str! "   x", [], str! "2. c"]).text =
      str! "\\begin{enumerate}\n\\item a\n\n\\begin{only}[html]\n\\begin{quotation}\nb\n\n\\end{quotation}\n\nx\n\n\\end{only}\n\n\\item c\n\n\\end{enumerate}\n\n" := by
  decide +kernel

/-- **C70: names are not escaped.** The name of a field is written as it is, so an ampersand in it is an error in LaTeX, and markup is not
converted. -/
theorem C70_name_raw :
    (transpile 60 sampleWriter [] [] [str! ":A & *B*: c"]).text =
      str! "\\begin{itemize}\n\\item \\textbf{A & *B*}\n\nc\n\n\n\\end{itemize}\n\n" := by
  decide +kernel

end Rustla
