import Verif.Lemmas.Paragraphs
import Verif.Spec.Checks
import Verif.Props.Scanners
import Verif.Props.WriterText
import Verif.Props.Transforms
/-!
# C50: documents made of paragraphs
-/
namespace Rustla
open Spec

/-- Blank lines are skipped. -/
theorem blanks_run {E : Env} {st : State} {ts : List (Re × Transition)} (ht : tableOf E st = .ok ((reBlankLine, emptyLine) :: ts))
    (hst : st ≠ .EOF ∧ st ≠ .Failure) {base : List State} (hbase : base.getLast? = some st) (rest : List Str) :
    ∀ (bs : List Str), (∀ l ∈ bs, isBlank l = true) → bs ++ rest ≠ [] → ∀ s : LoopState, s.stack = base → s.count < 10 →
      E.src.drop s.ps.cursor.relativeOffset = bs ++ rest →
      ∃ s', Reaches (machineOf E) bs.length s s' ∧ s'.ps = { s.ps with cursor := s.ps.cursor.incrementBy bs.length } ∧
        s'.stack = stackFor base rest ∧ s'.count < 10
  | [], _, hne, s, hs, hc, hd => by
    refine ⟨s, Reaches.refl _ _, rfl, ?_, hc⟩
    cases rest with
    | nil => exact absurd rfl hne
    | cons r rest => simpa [stackFor] using hs
  | b :: bs, hb, _, s, hs, hc, hd => by
    have hstep := step_blank (st := st) (l := b) (ls := bs ++ rest) ⟨hd, by simp, by rw [hs]; exact hbase, hc⟩ ht hst
      (hb b (by simp))
    by_cases hne : bs ++ rest = []
    · obtain ⟨rfl, rfl⟩ := List.append_eq_nil_iff.mp hne
      exact ⟨_, Reaches.step hstep, rfl, by simp [stackFor, hs], by simp⟩
    · have hd' : E.src.drop (s.ps.cursor.incrementBy 1).relativeOffset = bs ++ rest := by
        have h1 : E.src.drop (s.ps.cursor.relativeOffset + 1) = (E.src.drop s.ps.cursor.relativeOffset).drop 1 := by
          rw [List.drop_drop]
        show E.src.drop (s.ps.cursor.relativeOffset + 1) = _
        rw [h1, hd]; rfl
      obtain ⟨s2, hstep, e1, e2, e3⟩ : ∃ s2, parseStep (machineOf E) s = .ok (.next s2) ∧
          s2.ps = { s.ps with cursor := s.ps.cursor.incrementBy 1 } ∧ s2.stack = stackFor s.stack (bs ++ rest) ∧
          s2.count = 0 := ⟨_, hstep, rfl, rfl, rfl⟩
      have hemp : (bs ++ rest).isEmpty = false := by
        cases he : bs ++ rest with
        | nil => exact absurd he hne
        | cons => rfl
      obtain ⟨s', h1, h2, h3, h4⟩ := blanks_run ht hst hbase rest bs (fun l hl => hb l (by simp [hl])) hne s2
        (by rw [e2, hs]; simp only [stackFor, hemp]; rfl) (by omega) (by rw [e1]; exact hd')
      refine ⟨s', ?_, ?_, h3, h4⟩
      · have := (Reaches.step hstep).trans h1
        rwa [Nat.add_comm] at this
      · rw [h2, e1]
        simp [LineCursor.incrementBy]; omega

theorem groups_nil {gs : List (List Str)} (h : Groups [] gs) : gs = [] := by
  generalize hl : ([] : List Str) = ls at h
  cases h with
  | blank => rfl
  | group bs g rest gs _ hg =>
    have := hl.symm
    simp [hg] at this

/-- Groups of lines become paragraphs, in any state that reads bodies and at any indentation. -/
theorem groups_run {E : Env} {st : State} (ht : tableOf E st = .ok (bodyTable E)) (hst : st ≠ .EOF ∧ st ≠ .Failure)
    {base : List State} (hbase : base.getLast? = some st) {lines : List Str} {gs : List (List Str)} (h : Groups lines gs) :
    ∀ (pc : List Str → List Piece), (∀ g ∈ gs, ((∀ l ∈ g, TextLine l) ∧ ReadsAsText E g) ∧ Pieces (pc g) ∧ groupText g = piecesSource (pc g)) →
    lines ≠ [] → ∀ (s : LoopState) (cs : List TreeNode), s.stack = base → s.count < 10 →
      E.src.drop s.ps.cursor.relativeOffset = lines →
      s.ps.doc.tree.node.data.bodyIndent = some E.baseIndent →
      childIsAllowed s.ps.doc.tree.node.kind .Paragraph = .ok true → s.ps.doc.tree.node.children = some cs →
      s.ps.doc.hyperref.accumulated = [] →
      ∃ (k : Nat) (s' : LoopState) (ps : List TreeNode), k ≤ lines.length ∧ Reaches (machineOf E) k s s' ∧
        s'.stack = base ++ [.EOF] ∧ s'.count < 10 ∧ s'.ps.doc.notes = s.ps.doc.notes ∧
        s'.ps.doc.tree = { s.ps.doc.tree with node := s.ps.doc.tree.node.setChildren (some (cs ++ ps)) } ∧
        shapesOf ps = gs.map (fun g => paragraphShape E.baseIndent (pc g)) := by
  intro pc
  have htb : tableOf E st = .ok ((reBlankLine, emptyLine) :: (bodyTable E).tail) := ht
  induction h with
  | blank bs hbs =>
    intro _ hne s cs hs hc hd hb ha hch _
    obtain ⟨s', h1, h2, h3, h4⟩ := blanks_run htb hst hbase [] bs hbs (by simpa using hne) s hs hc (by simpa using hd)
    refine ⟨_, s', [], Nat.le_refl _, h1, by simpa [stackFor] using h3, h4, by rw [h2], ?_, rfl⟩
    rw [h2]
    cases hn : s.ps.doc.tree with
    | mk node path =>
      rw [hn] at hch
      cases node with
      | mk i r c d ch => simp only [TreeNode.children] at hch; subst hch; simp [TreeNode.setChildren]
  | group bs g rest gs hbs hg hgl hrest hgr ih =>
    intro hplain hne s cs hs hc hd hb ha hch hq
    have hgne : g ++ rest ≠ [] := by simp [hg]
    obtain ⟨s1, h1, h2, h3, h4⟩ := blanks_run htb hst hbase (g ++ rest) bs hbs (by simp [hg]) s hs hc
      (by simpa [List.append_assoc] using hd)
    have hst1 : s1.stack = base := by rw [h3]; simp [stackFor, hg]
    have hd1 : E.src.drop s1.ps.cursor.relativeOffset = g ++ rest := by
      have e1 : E.src.drop (s.ps.cursor.relativeOffset + bs.length) =
          (E.src.drop s.ps.cursor.relativeOffset).drop bs.length := by rw [List.drop_drop]
      have e2 : s1.ps.cursor.relativeOffset = s.ps.cursor.relativeOffset + bs.length := by rw [h2]; rfl
      rw [e2, e1, hd]; simp [List.append_assoc]
    obtain ⟨d', para, hp1, hp2, hp3, hp4⟩ := step_paragraph (s := s1) (st := st) (g := g) (ps := pc g) (rest := rest) (cs := cs)
      ⟨hd1, hgne, by rw [hst1]; exact hbase, h4⟩ ht hst hg (hplain g (by simp)).1.1 (hplain g (by simp)).1.2
      (hplain g (by simp)).2.1 (hplain g (by simp)).2.2 hrest (by rw [h2]; exact hb)
      (by rw [h2]; exact ha) (by rw [h2]; exact hch) (by rw [h2]; exact hq)
    have hdoc : s1.ps.doc = s.ps.doc := by rw [h2]
    rw [hdoc] at hp2 hp4
    by_cases hr : rest = []
    · subst hr
      obtain rfl := groups_nil hgr
      refine ⟨_, _, [para], ?_, h1.trans (Reaches.step hp1), by simp [stackFor, hst1], by simp, by rw [hp2], hp4, ?_⟩
      · have : 0 < g.length := List.length_pos_iff.mpr hg
        simp; omega
      · simp [shapesOf, hp3]
    · obtain ⟨s2, hstep, e1, e2, e3⟩ : ∃ s2, parseStep (machineOf E) s1 = .ok (.next s2) ∧
          s2.ps = { s1.ps with doc := d', cursor := s1.ps.cursor.incrementBy g.length } ∧
          s2.stack = stackFor s1.stack rest ∧ s2.count = 0 := ⟨_, hp1, rfl, rfl, rfl⟩
      have hemp : rest.isEmpty = false := by
        cases rest with
        | nil => exact absurd rfl hr
        | cons => rfl
      have hd2 : E.src.drop (s1.ps.cursor.relativeOffset + g.length) = rest := by
        rw [← List.drop_drop, hd1]; simp
      obtain ⟨k, s', ps, k1, k2, k3, k4, k5, k6, k7⟩ := ih (fun g' hg' => hplain g' (by simp [hg'])) hr s2 (cs ++ [para])
        (by rw [e2, hst1]; simp only [stackFor, hemp]; rfl) (by omega)
        (by rw [e1]; exact hd2)
        (by
          rw [e1]
          show d'.tree.node.data.bodyIndent = _
          rw [hp4]
          cases hn : s.ps.doc.tree.node with
          | mk i r c d ch => rw [hn] at hb; exact hb)
        (by
          rw [e1]
          show childIsAllowed d'.tree.node.kind _ = _
          rw [hp4]
          cases hn : s.ps.doc.tree.node with
          | mk i r c d ch => rw [hn] at ha; exact ha)
        (by
          rw [e1]
          show d'.tree.node.children = _
          rw [hp4]
          cases hn : s.ps.doc.tree.node with
          | mk i r c d ch => rfl)
        (by rw [e1]; exact (congrArg Prod.snd hp2).trans hq)
      refine ⟨_, s', para :: ps, ?_, (h1.trans (Reaches.step hstep)).trans k2, k3, k4, ?_, ?_, ?_⟩
      · have : 0 < g.length := List.length_pos_iff.mpr hg
        simp; omega
      · rw [k5, e1]; exact hp2
      · rw [k6, e1]
        show Zipper.mk _ _ = _
        simp only [hp4]
        cases hn : s.ps.doc.tree.node with
        | mk i r c d ch => simp [TreeNode.setChildren]
      · simp [shapesOf, hp3, k7]

/-- Lines that are taken for text, without inline markup. -/
def ProseLines (g : List Str) : Prop := ((∀ l ∈ g, TextLine l) ∧ ∀ l ∈ g, markupFree l) ∧ ∀ E : Env, ReadsAsText E g

/-- Groups of lines that are taken for text are paragraphs. -/
theorem prose_paragraphs (fuel : Nat) (stem folder : Str) (lines : List Str) (gs : List (List Str)) (hne : lines ≠ [])
    (hg : Groups lines gs) (hp : ∀ g ∈ gs, ProseLines g) (hfuel : lines.length < fuel) :
    ∃ d t, parseDocument fuel stem folder lines = .ok (.eof d [.Body]) ∧ IsDoc d.tree t ∧
      shapeOf t = .node .Document (gs.map (plainShape 0)) := by
  obtain ⟨fuel, rfl⟩ : ∃ f, fuel = f + 1 := ⟨fuel - 1, by omega⟩
  let E : Env := { src := lines, baseIndent := 0, nested := parserOf fuel }
  let pc : List Str → List Piece := fun g => if h : markupFree (groupText g) then (pieces_of_runs h).choose else []
  have hpc0 : ∀ g ∈ gs, (((∀ l ∈ g, TextLine l) ∧ ReadsAsText E g) ∧ Pieces (pc g) ∧ groupText g = piecesSource (pc g)) ∧
      paragraphShape 0 (pc g) = plainShape 0 g := by
    intro g hgm
    have hm := groupText_plain (hp g hgm).1.2
    have e : pc g = (pieces_of_runs hm).choose := dif_pos hm
    obtain ⟨c1, c2, c3⟩ := (pieces_of_runs hm).choose_spec
    rw [← e] at c1 c2 c3
    refine ⟨⟨⟨(hp g hgm).1.1, (hp g hgm).2 E⟩, c1, c2.symm⟩, ?_⟩
    have := congrArg (List.map inlineShape) c3
    rw [pieces_shapes, List.map_map] at this
    unfold paragraphShape plainShape
    rw [this]
    refine congrArg _ (List.map_congr_left fun r _ => ?_)
    show inlineShape (runNode r) = _
    unfold runNode
    split <;> rfl
  have hpc := fun g hgm => (hpc0 g hgm).1
  obtain ⟨k, s', ps, k1, k2, k3, k4, _, k6, k7⟩ := groups_run (E := E) (st := .Body) rfl (by simp) (base := [.Body]) rfl hg pc hpc hne
    (LoopState.init (DocTree.new stem folder) 0 .Body 0) [] rfl (Nat.zero_lt_succ _) rfl rfl rfl rfl rfl
  refine ⟨s'.ps.doc, s'.ps.doc.tree.node, ?_, ?_, ?_⟩
  · show parseLoop (machineOf E) (fuel + 1) _ = _
    have e : fuel + 1 = (fuel - k + 1) + k := by omega
    rw [e, k2]
    have hs : parseStep (machineOf E) s' = .ok (.done (.eof s'.ps.doc [.Body])) := by
      unfold parseStep
      rw [if_neg (by rintro ⟨_, h⟩; omega), k3]
      rfl
    simp [parseLoop, hs, bind, Except.bind, pure, Except.pure]
  · rw [k6]
    rfl
  · rw [k6]
    show Shape.labelled .Document [] (shapesOf ([] ++ ps)) = _
    rw [List.nil_append, k7]
    exact congrArg _ (List.map_congr_left fun g hgm => (hpc0 g hgm).2)

/-- **C50.** Every document whose lines are plain paragraphs separated by blank lines is parsed successfully, and its tree
is the document node with exactly one paragraph per group of lines, in order, holding the words and the white space of
that group. -/
theorem C50_paragraphs (fuel : Nat) (stem folder : Str) (lines : List Str) (gs : List (List Str)) (hne : lines ≠ [])
    (hg : Groups lines gs) (hp : ∀ g ∈ gs, ∀ l ∈ g, PlainLine l) (hfuel : lines.length < fuel) :
    ∃ d t, parseDocument fuel stem folder lines = .ok (.eof d [.Body]) ∧ IsDoc d.tree t ∧
      shapeOf t = .node .Document (gs.map (plainShape 0)) :=
  prose_paragraphs fuel stem folder lines gs hne hg
    (fun g hg => ⟨⟨fun l hl => (hp g hg l hl).toTextLine, fun l hl => (hp g hg l hl).noMarkup⟩, fun _ => readsAsText (textLines_plain (hp g hg)) _⟩) hfuel

/-! ## The output -/

/-- The writer writes exactly this text, without a panic. -/
def Writes (w : WriterEnv) (t : TreeNode) (s : Str) : Prop := (writeNode w t).panic = none ∧ (writeNode w t).text = s

theorem andThen_text {a b : Written} (ha : a.panic = none) :
    (a.andThen b).panic = b.panic ∧ (a.andThen b).text = a.text ++ b.text := by
  unfold Written.andThen Written.text; simp [ha]

theorem writeNodes_text {w : WriterEnv} : ∀ {cs : List TreeNode} {ss : List Str}, List.Forall₂ (Writes w) cs ss →
    (writeNodes w cs).panic = none ∧ (writeNodes w cs).text = ss.flatten
  | _, _, .nil => ⟨rfl, rfl⟩
  | _, _, .cons h hs => by
    obtain ⟨h1, h2⟩ := writeNodes_text hs
    simp only [writeNodes]
    obtain ⟨k1, k2⟩ := andThen_text (b := writeNodes w _) h.1
    exact ⟨k1.trans h1, by rw [k2, h.2, h2]; simp⟩

theorem writes_node {w : WriterEnv} {i : Nat} {r c : Option (List Str)} {d : NodeType} {cs : List TreeNode} {ch : Option (List TreeNode)}
    {a b : Str} {ss : List Str} (hch : ch = some cs ∨ (ch = none ∧ cs = [])) (ha : preString w r d = .ok a)
    (hb : postString w r d = .ok b) (hs : List.Forall₂ (Writes w) cs ss) :
    Writes w (.mk i r c d ch) (a ++ ss.flatten ++ b) := by
  obtain ⟨h1, h2⟩ := writeNodes_text hs
  unfold Writes
  rcases hch with rfl | ⟨rfl, rfl⟩
  · simp only [writeNode, ha, hb, writeChunk]
    obtain ⟨k1, k2⟩ := andThen_text (b := { chunks := [b] }) h1
    obtain ⟨l1, l2⟩ := andThen_text (a := { chunks := [a] }) (b := (writeNodes w cs).andThen { chunks := [b] }) rfl
    refine ⟨by rw [l1, k1], ?_⟩
    rw [l2, k2, h2]; simp [Written.text]
  · cases hs
    simp [writeNode, ha, hb, writeChunk, Written.andThen, Written.text]

/-- Trees of a given shape and the list of their children. -/
theorem shape_children {t : TreeNode} {d : NodeType} {ls : List Str} {ss : List Shape} (h : shapeOf t = .labelled d ls ss) :
    ∃ i r c ch cs, t = .mk i r c d ch ∧ (ch = some cs ∨ (ch = none ∧ cs = [])) ∧ shapesOf cs = ss ∧ r.getD [] = ls := by
  cases t with
  | mk i r c d' ch =>
    cases ch with
    | none => simp only [shapeOf, Shape.labelled.injEq] at h; obtain ⟨rfl, rfl, rfl⟩ := h; exact ⟨i, r, c, none, [], rfl, .inr ⟨rfl, rfl⟩, rfl, rfl⟩
    | some cs => simp only [shapeOf, Shape.labelled.injEq] at h; obtain ⟨rfl, rfl, rfl⟩ := h; exact ⟨i, r, c, some cs, cs, rfl, .inl rfl, rfl, rfl⟩

theorem shapes_forall₂ {α β : Type} {f : α → Shape} {g : α → β} {R : TreeNode → β → Prop} :
    ∀ {cs : List TreeNode} {xs : List α}, (∀ x ∈ xs, ∀ t, shapeOf t = f x → R t (g x)) → shapesOf cs = xs.map f →
    List.Forall₂ R cs (xs.map g)
  | [], [], _, _ => .nil
  | t :: cs, x :: xs, h, hs => by
    simp only [shapesOf, List.map_cons, List.cons.injEq] at hs
    exact .cons (h x (by simp) t hs.1) (shapes_forall₂ (fun y hy => h y (by simp [hy])) hs.2)
  | [], _ :: _, _, hs => by simp [shapesOf] at hs
  | _ :: _, [], _, hs => by simp [shapesOf] at hs

theorem run_writes (w : WriterEnv) (r : Str) (t : TreeNode) (h : shapeOf t = .node (runNode r) []) :
    Writes w t (nodeText (runNode r)) := by
  obtain ⟨i, rn, c, ch, cs, rfl, hch, hcs, _⟩ := shape_children h
  obtain rfl : cs = [] := by cases cs <;> simp_all [shapesOf]
  unfold runNode
  split
  · simpa [nodeText] using writes_node (i := i) (c := c) (a := r) (b := []) (r := rn) (w := w) (d := .WhiteSpace r) hch rfl rfl .nil
  · simpa [nodeText] using writes_node (i := i) (c := c) (a := escapeText r) (b := []) (r := rn) (w := w) (d := .Text (escapeText r))
      hch rfl rfl .nil

theorem groupText_text (g : List Str) (hm : markupFree (groupText g)) (hb : '\\' ∉ groupText g) :
    ((runs (groupText g)).map fun r => nodeText (runNode r)).flatten = escapeText (groupText g) := by
  obtain ⟨nodes, h1, h2⟩ := C33_text none { offset := 0, baseline := 0 } (groupText g) hm hb
  rw [C33_plain none _ _ hm] at h1
  cases h1
  rw [List.map_map] at h2
  exact h2

theorem paragraph_writes (w : WriterEnv) (k : Nat) (g : List Str) (t : TreeNode) (hm : markupFree (groupText g))
    (hb : '\\' ∉ groupText g) (h : shapeOf t = plainShape k g) :
    Writes w t (escapeText (groupText g) ++ str! "\n\n") := by
  obtain ⟨i, rn, c, ch, cs, rfl, hch, hcs, _⟩ := shape_children h
  have := writes_node (w := w) (i := i) (r := rn) (c := c) (d := .Paragraph k) (a := []) (b := str! "\n\n") hch rfl rfl
    (shapes_forall₂ (g := fun r => nodeText (runNode r)) (fun r _ t ht => run_writes w r t ht) hcs)
  rw [groupText_text g hm hb] at this
  exact this

theorem transform_shape {t : TreeNode} {d : NodeType} {ch : Option (List TreeNode)} {cs : List TreeNode} {i : Nat}
    {r c : Option (List Str)} (ht : t = .mk i r c d ch) (hch : ch = some cs ∨ (ch = none ∧ cs = [])) (h1 : d.kind ≠ .Figure)
    (h2 : d.kind ≠ .ListTable) (hcs : ∀ c ∈ cs, transformTree c = .ok c) : transformTree t = .ok t := by
  subst ht
  rcases hch with rfl | ⟨rfl, rfl⟩
  · refine transformTree_of (transformHere_plain (t := .mk i r c d (some cs)) h1 h2) rfl ?_
    clear h1 h2
    induction cs with
    | nil => exact .nil
    | cons a cs ih => exact .cons (hcs a (by simp)) (ih fun x hx => hcs x (by simp [hx]))
  · exact transformTree_leaf rfl

theorem mem_shapes {cs : List TreeNode} {x : TreeNode} (hx : x ∈ cs) : shapeOf x ∈ shapesOf cs := by
  induction cs with
  | nil => cases hx
  | cons a cs ih =>
    rcases List.mem_cons.mp hx with rfl | hx
    · simp [shapesOf]
    · simp [shapesOf, ih hx]

theorem paragraphs_transform {t : TreeNode} {gs : List (List Str)} {k : Nat}
    (h : shapeOf t = .node .Document (gs.map (plainShape k))) : transformTree t = .ok t := by
  obtain ⟨i, rn, c, ch, cs, ht, hch, hcs, _⟩ := shape_children h
  refine transform_shape ht hch (by simp [NodeType.kind]) (by simp [NodeType.kind]) fun p hp => ?_
  obtain ⟨g, _, hg⟩ := List.mem_map.mp (hcs ▸ mem_shapes hp)
  obtain ⟨i, rn, c, ch, cs, ht, hch, hcs, _⟩ := shape_children hg.symm
  refine transform_shape ht hch (by simp [NodeType.kind]) (by simp [NodeType.kind]) fun q hq => ?_
  obtain ⟨r, _, hr⟩ := List.mem_map.mp (hcs ▸ mem_shapes hq)
  obtain ⟨i, rn, c, ch, cs, ht, hch, hcs, _⟩ := shape_children hr.symm
  refine transform_shape ht hch ?_ ?_ fun q' hq' => ?_
  · unfold runNode; split <;> simp [NodeType.kind]
  · unfold runNode; split <;> simp [NodeType.kind]
  · have := mem_shapes hq'; rw [hcs] at this; cases this

/-- The output for groups of lines that are taken for text. -/
theorem prose_output (fuel : Nat) (w : WriterEnv) (stem folder : Str) (lines : List Str) (gs : List (List Str)) (hne : lines ≠ [])
    (hg : Groups lines gs) (hp : ∀ g ∈ gs, ProseLines g) (hb : ∀ g ∈ gs, ∀ l ∈ g, '\\' ∉ l)
    (hfuel : lines.length < fuel) (hfull : w.fullDocument = false) :
    (transpile fuel w stem folder lines).panic = none ∧
      (transpile fuel w stem folder lines).text = (gs.map fun g => escapeText (groupText g) ++ str! "\n\n").flatten := by
  obtain ⟨d, t, h1, h2, h3⟩ := prose_paragraphs fuel stem folder lines gs hne hg hp hfuel
  have ht := paragraphs_transform h3
  have hw : transpile fuel w stem folder lines = writeNode w t := by
    unfold transpile
    rw [h1]
    have : d.transform = .ok { d with tree := { node := t, path := [] } } := by
      unfold DocTree.transform
      rw [show d.tree.walkToRoot = .ok ⟨t, []⟩ from h2]
      simp only [bind, Except.bind, ht, pure, Except.pure]
    simp only [ParsingResult.doc, this]
    rfl
  rw [hw]
  obtain ⟨i, rn, c, ch, cs, rfl, hch, hcs, _⟩ := shape_children h3
  have := writes_node (w := w) (i := i) (r := rn) (c := c) (d := .Document) (a := []) (b := []) hch
    (by simp [preString, flag, hfull]) (by simp [postString, flag, hfull])
    (shapes_forall₂ (g := fun g => escapeText (groupText g) ++ str! "\n\n")
      (fun g hgm t ht => paragraph_writes w 0 g t (groupText_plain (hp g hgm).1.2) (fun hm => ?_) ht) hcs)
  · rw [List.nil_append, List.append_nil] at this
    exact this
  · rcases groupText_mem hm with h | ⟨l, hl, hx⟩
    · exact absurd h (by decide)
    · exact hb g hgm l hl hx

/-- **C50.** The output for such a document, if it contains no backslash: the text of every paragraph, escaped for LaTeX
and followed by an empty line, in the order of the source. -/
theorem C50_output (fuel : Nat) (w : WriterEnv) (stem folder : Str) (lines : List Str) (gs : List (List Str)) (hne : lines ≠ [])
    (hg : Groups lines gs) (hp : ∀ g ∈ gs, ∀ l ∈ g, PlainLine l) (hb : ∀ g ∈ gs, ∀ l ∈ g, '\\' ∉ l)
    (hfuel : lines.length < fuel) (hfull : w.fullDocument = false) :
    (transpile fuel w stem folder lines).panic = none ∧
      (transpile fuel w stem folder lines).text = (gs.map fun g => escapeText (groupText g) ++ str! "\n\n").flatten :=
  prose_output fuel w stem folder lines gs hne hg
    (fun g hg => ⟨⟨fun l hl => (hp g hg l hl).toTextLine, fun l hl => (hp g hg l hl).noMarkup⟩, fun _ => readsAsText (textLines_plain (hp g hg)) _⟩)
    hb hfuel hfull

/-- A document with two paragraphs. -/
def sampleParagraphs : List Str := [str! "", str! "Lorem ipsum 5%", str! "dolor  sit", str! "", str! " ", str! "amet."]

theorem samplePlain : ∀ l ∈ [str! "Lorem ipsum 5%", str! "dolor  sit", str! "amet."], PlainLine l := by decide +kernel

theorem sampleGroups : Groups sampleParagraphs [[str! "Lorem ipsum 5%", str! "dolor  sit"], [str! "amet."]] :=
  .group [[]] [str! "Lorem ipsum 5%", str! "dolor  sit"] [[], str! " ", str! "amet."] _ (by decide) (by decide) (by decide)
    (by decide) (.group [[], str! " "] [str! "amet."] [] _ (by decide) (by decide) (by decide) (by decide)
      (.blank [] (by decide)))

/-- The hypotheses are met by a document with two paragraphs, and this is its output. -/
example (w : WriterEnv) (h : w.fullDocument = false) :
    (transpile 7 w [] [] sampleParagraphs).text = str! "Lorem ipsum 5\\%\ndolor  sit\n\namet.\n\n" :=
  (C50_output 7 w [] [] sampleParagraphs _ (by decide) sampleGroups (by
    intro g hg l hl
    refine samplePlain l ?_
    simp only [List.mem_cons, List.not_mem_nil, or_false] at hg
    rcases hg with rfl | rfl <;> (simp_all; try tauto)) (by decide) (by decide) h).2.trans (by decide +kernel)

end Rustla
