import Verif.Lemmas.Forests
/-!
# Documents of paragraphs, bullet lists, comments, directives and sections (C56)

`Spec.Paper` gives the structure of such a document, `Paper.lines` its text and `Paper.shape` the tree it stands for.
-/
namespace Rustla
open Spec

theorem le_foldr_max (l : List Nat) : ∀ x ∈ l, x ≤ l.foldr max 0 := by
  induction l with
  | nil => intro x hx; cases hx
  | cons a l ih =>
    intro x hx
    rw [List.foldr_cons]
    rcases List.mem_cons.mp hx with rfl | hx
    · omega
    · have := ih x hx; omega

theorem height_le {p : Paper} : ∀ b ∈ p.bodies, b.height ≤ p.height := fun b hb => le_foldr_max _ _ (List.mem_map_of_mem hb)

theorem cost_le {p : Paper} : ∀ b ∈ p.bodies, b.cost ≤ p.cost := fun b hb => le_foldr_max _ _ (List.mem_map_of_mem hb)

theorem bodies_pre {p : Paper} {b : Blocks} (h : b ∈ p.pre :: p.more.map (·.2)) : b ∈ p.bodies := List.mem_append_left _ h

theorem bodies_sec {p : Paper} {s : Sec} (h : s ∈ p.secs) {b : Blocks} (hb : b ∈ s.bodies) : b ∈ p.bodies :=
  List.mem_append_right _ (List.mem_flatten.mpr ⟨_, List.mem_map_of_mem h, hb⟩)

theorem ruled_size {more : List (Rule × Blocks)} {b : Blocks} (h : b ∈ more.map (·.2)) : textSize (b.lines 0) ≤ textSize (ruledLines more) := by
  induction more with
  | nil => cases h
  | cons x more ih =>
    simp only [ruledLines, List.map_cons, List.flatten_cons, textSize_append, textSize_cons]
    rcases List.mem_cons.mp h with rfl | h
    · simp only; omega
    · have := ih h; simp only [ruledLines] at this; omega

theorem seenAfter_withLevels (seen : List SectionLineStyle) (secs : List Sec) : seenAfter seen (withLevels seen secs) =
    (secs.map Sec.style).foldl (fun seen x => if x ∈ seen then seen else seen ++ [x]) seen := by
  induction secs generalizing seen with
  | nil => rfl
  | cons s secs ih => simp only [withLevels, seenAfter, List.map_cons, List.foldl_cons]; exact ih _

theorem withLevels_snd (seen : List SectionLineStyle) (secs : List Sec) : (withLevels seen secs).map (·.2) = secs := by
  induction secs generalizing seen with
  | nil => rfl
  | cons s secs ih => simp only [withLevels, List.map_cons, ih]

theorem gaps_withLevels {before : List Str} {secs : List Sec} (h : gapsBefore before secs) (seen : List SectionLineStyle) :
    Gaps (withLevels seen secs) [] := by
  induction secs generalizing before seen with
  | nil => intro a r b e; simp [withLevels] at e
  | cons s secs ih =>
    intro a r b e
    cases a with
    | nil =>
      obtain ⟨rfl, rfl⟩ : (seen.idxOf s.style + 1, s) = r ∧ withLevels _ secs = b := by simpa [withLevels] using e
      cases secs with
      | nil => exact .inr ⟨rfl, rfl⟩
      | cons s' secs => exact .inl h.2.1
    | cons x a =>
      have : withLevels (if s.style ∈ seen then seen else seen ++ [s.style]) secs = a ++ r :: b := by
        simp only [withLevels, List.cons_append, List.cons.injEq] at e
        exact e.2
      exact ih h.2 _ a r b this

theorem secLines_withLevels (seen : List SectionLineStyle) (secs : List Sec) :
    secLines (withLevels seen secs) = (secs.map Sec.lines).flatten := by
  have : (withLevels seen secs).map (fun r => r.2.lines) = ((withLevels seen secs).map (·.2)).map Sec.lines := by
    rw [List.map_map]; rfl
  unfold secLines
  rw [this, withLevels_snd]

theorem sec_lines_size {s : Sec} {secs : List Sec} (h : s ∈ secs) {b : Blocks} (hb : b ∈ s.bodies) :
    textSize (b.lines 0) ≤ textSize (secs.map Sec.lines).flatten := by
  induction secs with
  | nil => cases h
  | cons a secs ih =>
    simp only [List.map_cons, List.flatten_cons, textSize_append]
    rcases List.mem_cons.mp h with rfl | h
    · simp only [Sec.lines, textSize_append]
      rcases List.mem_cons.mp hb with rfl | hb
      · omega
      · have := ruled_size hb; omega
    · have := ih h; omega

/-- The run of the loop that has reached the end of the text. -/
theorem run_end {E : Env} {n0 : Nat} {stem folder : Str} {lines : List Str} {S : SectionData} {s : LoopState} {ex : List Frame} {f : Frame} {c : Nat}
    (hsrc : E.src = lines) (hbase : E.baseIndent = 0) (hn : E.nested = parserOf n0)
    (hg : Goes E (LoopState.init (DocTree.new stem folder) 0 .Body 0) s) (h : At E S [] s (ex ++ [f]) [] c) (hc : c ≤ 9 := by omega) :
    ∃ n d stack t, parseDocument n stem folder lines = .ok (.eof d stack) ∧ IsDoc d.tree t ∧
      shapeOf t = .labelled f.data f.labels (f.done ++ shut [] ex) := by
  obtain ⟨k, hk⟩ := hg
  have hstack : s.stack = ((ex ++ [f]).map (·.st)).reverse ++ [.EOF] := by rw [h.stack]; simp [stackFor]
  have hstep : parseStep (machineOf E) s = .ok (.done (.eof s.ps.doc ((ex ++ [f]).map (·.st)).reverse)) := by
    unfold parseStep
    rw [if_neg (by rintro ⟨_, h'⟩; have := h.count; omega), hstack, List.getLast?_concat, List.dropLast_concat]
  have hloop : parseLoop (machineOf E) (1 + k) (LoopState.init (DocTree.new stem folder) 0 .Body 0) =
      .ok (.eof s.ps.doc ((ex ++ [f]).map (·.st)).reverse) := by
    rw [hk]
    simp only [parseLoop, hstep, bind, Except.bind, pure, Except.pure]
  refine ⟨n0 + (1 + k) + 1, s.ps.doc, ((ex ++ [f]).map (·.st)).reverse, ?_⟩
  have hdoc : parseDocument (n0 + (1 + k) + 1) stem folder lines = .ok (.eof s.ps.doc ((ex ++ [f]).map (·.st)).reverse) := by
    have e1 : ({ src := lines, baseIndent := 0, nested := parserOf (n0 + (1 + k)) } : Env) = E.with (parserOf (n0 + (1 + k))) := by
      simp only [Env.with, hsrc, hbase]
    show parseLoop (machineOf { src := lines, baseIndent := 0, nested := parserOf (n0 + (1 + k)) }) (n0 + (1 + k) + 1) _ = _
    rw [e1]
    have e : n0 + (1 + k) + 1 = (1 + k) + (n0 + 1) := by omega
    rw [e]
    refine loop_more (M := machineOf E) (fun s => step_refines (E := E) (hn ▸ parserOf_mono (by omega)) s) (n0 + 1) (1 + k) _ hloop (by simp)
  have hsp := h.spine
  cases hz : s.ps.doc.tree with
  | mk node path =>
    rw [hz] at hsp
    obtain ⟨g, es, hge⟩ : ∃ g es, ex ++ f :: [] = g :: es := by
      cases ex with
      | nil => exact ⟨_, _, rfl⟩
      | cons e ex => exact ⟨_, _, rfl⟩
    rw [List.append_nil, hge] at hsp
    obtain ⟨t, w1, w2⟩ := walk_spine hsp rfl hge.symm
    refine ⟨t, hdoc, ?_, w2⟩
    show ((Zipper.walkToRootAux node path).bind fun n => .ok (⟨n, []⟩ : Zipper)) = _
    rw [w1]; rfl

/-- The run of the loop over a whole document. -/
theorem paper_run (stem folder : Str) (p : Paper) (hp : p.Ok) (hne : p.lines ≠ []) :
    ∃ n d stack t, parseDocument n stem folder p.lines = .ok (.eof d stack) ∧ IsDoc d.tree t ∧ shapeOf t = p.shape := by
  obtain ⟨hlead, hpre, hruled, hsecs, hgaps, hD, hDK⟩ := hp
  let n0 := roundsBound (textSize p.lines)
  let E : Env := { src := p.lines, baseIndent := 0, nested := parserOf n0 }
  let f : Frame := ⟨.Body, .Document, [], []⟩
  have hf : f.Body E 0 := ⟨.of rfl, .inl rfl, rfl, fun _ => takes_body rfl (by decide)⟩
  have hinit : At E {} [] (LoopState.init (DocTree.new stem folder) 0 .Body 0) [f] p.lines 0 := by
    refine ⟨rfl, .mk (cs := []) ⟨rfl, rfl, rfl, rfl, rfl⟩ .nil, ?_, Nat.le_refl _, rfl⟩
    have : p.lines.isEmpty = false := by
      cases h : p.lines with
      | nil => exact absurd h hne
      | cons => rfl
    simp [stackFor, this, LoopState.init, f]
  have hlines : p.lines = p.lead ++ (p.pre.lines 0 ++ (ruledLines p.more ++ (secLines (withLevels [] p.secs) ++ []))) := by
    rw [secLines_withLevels]; simp [Paper.lines]
  rw [hlines] at hinit
  obtain ⟨s1, k1, k2⟩ := AtL.blanks hf.readable hlead hinit
  have hlenpre : ∀ b ∈ p.pre :: p.more.map (·.2), roundsBound (textSize (b.lines 0)) ≤ n0 := fun b hb => roundsBound_mono (by
    simp only [Paper.lines, textSize_append]
    rcases List.mem_cons.mp hb with rfl | hb
    · omega
    · have := ruled_size hb; omega)
  have hokL : ∀ r ∈ withLevels [] p.secs, r.2 ∈ p.secs := by
    intro r hr
    have := List.mem_map_of_mem (f := (·.2)) hr
    rwa [withLevels_snd] at this
  have hlow : Low 1 (secLines (withLevels [] p.secs) ++ []) :=
    secLines_low (fun r hr => hsecs _ (hokL r hr)) (fun x hx => by simp at hx)
  have hpreBlank : BlankLast (tailLines (p.pre.lines 0) p.more) ∨ Ends 0 (secLines (withLevels [] p.secs) ++ []) := by
    cases hs : p.secs with
    | nil => exact .inr fun x hx => by simp [withLevels, secLines] at hx
    | cons s secs => rw [hs] at hgaps; exact .inl hgaps.1
  obtain ⟨exb, ssb, ⟨s2, k3, k4⟩, k5, k7, k8⟩ := chapter_run (E := E) (n := n0) (H := p.height) (C := p.cost) (lvl := 0) rfl rfl hD (by omega)
    (fs := []) hlow p.more p.pre (before := p.lead) (k := 0) (f := f) (.inl ⟨rfl, rfl⟩) hpre hruled
    (fun b hb => ⟨⟨height_le b (bodies_pre hb), cost_le b (bodies_pre hb)⟩, hlenpre b hb⟩) hpreBlank hlines k2
  have hlev := leveled_withLevels [] p.secs
  have hstyles : (seenAfter [] (withLevels [] p.secs)).length = p.styles := by rw [seenAfter_withLevels]; rfl
  obtain ⟨S', ex', ss, ⟨s3, k9, k10⟩, k11, k12, k13, k14⟩ := forest_run (E := E) (n := n0) (H := p.height) (C := p.cost) (K := p.styles) rfl rfl hD hDK
    (withLevels [] p.secs).length (withLevels [] p.secs) (f.add ssb) [] exb [] s2 {} [] 0 (Nat.le_refl _) hlev sectionInv_new
    (fun r hr => ⟨hsecs _ (hokL r hr), fun b hb => ⟨⟨height_le _ (bodies_sec (hokL r hr) hb), cost_le _ (bodies_sec (hokL r hr) hb)⟩, roundsBound_mono (by
      have hl := sec_lines_size (hokL r hr) hb
      simp only [Paper.lines, textSize_append]; omega)⟩⟩)
    (gaps_withLevels hgaps []) (fun x hx => by simp at hx)
    (fun r hr => by
      obtain ⟨h1, h2⟩ := leveled_le hlev r hr
      exact ⟨h1, by rw [← hstyles]; exact h2, .inl ⟨rfl, rfl⟩⟩)
    (fun r _ e he => (k7 e he).heading _) (fun e he => (k7 e he).heading _)
    (by omega) k4
  obtain ⟨k, hk⟩ : Goes E (LoopState.init (DocTree.new stem folder) 0 .Body 0) s3 := (k1.trans k3).trans k9
  obtain ⟨m, d, stack, t, q1, q2, q3⟩ := run_end (f := (f.add ssb).add ss) (stem := stem) (folder := folder) rfl rfl rfl ⟨k, hk⟩ k10
  refine ⟨m, d, stack, t, q1, q2, ?_⟩
  rw [q3]
  unfold Paper.shape
  simp only [Frame.add, f, List.nil_append]
  rw [List.append_assoc, k12, ← List.append_assoc, k5]
  simp [ownLabels]

/-- With enough fuel, the result is that of any run that ends. -/
theorem run_fuel {fuel n : Nat} {stem folder : Str} {lines : List Str} {d : DocTree} {stack : List State}
    (h : parseDocument n stem folder lines = .ok (.eof d stack)) (hfuel : roundsBound (textSize lines) ≤ fuel) :
    parseDocument fuel stem folder lines = .ok (.eof d stack) := by
  rcases C54_any_bound n stem folder lines with e | e
  · rw [h] at e; cases e
  · rcases C54_any_bound fuel stem folder lines with e' | e'
    · exact absurd e' (bound_enough hfuel)
    · rw [e', ← e, h]

/-- **C56.** Every document made of paragraphs, bullet lists, comments, directives (admonitions and other directives with
blocks in them, images, code, formulas and active elements) and sections with underlined or overlined titles, nested up to a
limit, is parsed successfully, and its tree is the one its structure stands for: every block becomes its node with the given
arguments and options, blocks are nested as they are indented, a section has the level given by the first appearance of its style and contains
everything up to the next title of the same or a smaller level, and nothing is lost, added or moved. -/
theorem C56_documents (fuel : Nat) (stem folder : Str) (p : Paper) (hp : p.Ok) (hne : p.lines ≠ [])
    (hfuel : roundsBound (textSize p.lines) ≤ fuel) :
    ∃ d stack t, parseDocument fuel stem folder p.lines = .ok (.eof d stack) ∧ IsDoc d.tree t ∧ shapeOf t = p.shape := by
  obtain ⟨n, d, stack, t, h1, h2, h3⟩ := paper_run stem folder p hp hne
  exact ⟨d, stack, t, run_fuel h1 hfuel, h2, h3⟩

/-! ## The output -/

/-- Whatever trees have these shapes, the transformations turn them into trees with this text in the output. -/
def Yields (w : WriterEnv) (ss : List Shape) (txt : Str) : Prop :=
  ∀ cs, shapesOf cs = ss → ∃ cs', List.Forall₂ (fun c c' => transformTree c = .ok c') cs cs' ∧
    (writeNodes w cs').panic = none ∧ (writeNodes w cs').text = txt

theorem Yields.nil (w : WriterEnv) : Yields w [] [] := by
  intro cs h
  obtain rfl : cs = [] := by cases cs <;> simp_all [shapesOf]
  exact ⟨[], .nil, rfl, rfl⟩

theorem writeNodes_append (w : WriterEnv) (a b : List TreeNode) :
    writeNodes w (a ++ b) = (writeNodes w a).andThen (writeNodes w b) := by
  induction a with
  | nil => simp [writeNodes, Written.andThen]
  | cons t a ih => simp only [List.cons_append, writeNodes, ih]; unfold Written.andThen; split <;> split <;> simp_all

theorem Yields.append {w : WriterEnv} {a b : List Shape} {x y : Str} (h : Yields w a x) (h' : Yields w b y) : Yields w (a ++ b) (x ++ y) := by
  intro cs hcs
  rw [shapesOf_eq_map] at hcs
  obtain ⟨c1, c2, rfl, e1, e2⟩ := List.map_eq_append_iff.mp hcs
  obtain ⟨d1, h1, h2, h3⟩ := h c1 (by rw [shapesOf_eq_map, e1])
  obtain ⟨d2, k1, k2, k3⟩ := h' c2 (by rw [shapesOf_eq_map, e2])
  obtain ⟨m1, m2⟩ := andThen_text (b := writeNodes w d2) h2
  refine ⟨d1 ++ d2, List.rel_append h1 k1, ?_⟩
  rw [writeNodes_append]
  exact ⟨m1.trans k2, by rw [m2, h3, k3]⟩

/-- The text of a node with children. -/
theorem write_node {w : WriterEnv} {i : Nat} {r c : Option (List Str)} {d : NodeType} {cs : List TreeNode} {a b : Str}
    (h : (writeNodes w cs).panic = none) (p1 : preString w r d = .ok a) (p2 : postString w r d = .ok b) :
    (writeNodes w [.mk i r c d (some cs)]).panic = none ∧ (writeNodes w [.mk i r c d (some cs)]).text = a ++ (writeNodes w cs).text ++ b := by
  have hw : (writeNode w (.mk i r c d (some cs))).panic = none ∧ (writeNode w (.mk i r c d (some cs))).text = a ++ (writeNodes w cs).text ++ b := by
    simp only [writeNode, p1, p2, writeChunk]
    obtain ⟨m1, m2⟩ := andThen_text (b := { chunks := [b] }) h
    obtain ⟨l1, l2⟩ := andThen_text (a := { chunks := [a] }) (b := (writeNodes w cs).andThen { chunks := [b] }) rfl
    refine ⟨by rw [l1, m1], ?_⟩
    rw [l2, m2]; simp [Written.text]
  simp only [writeNodes]
  obtain ⟨m1, m2⟩ := andThen_text (b := ({ chunks := [] } : Written)) hw.1
  exact ⟨m1, by rw [m2, hw.2]; simp [Written.text]⟩

theorem write_leaf {w : WriterEnv} {i : Nat} {r c : Option (List Str)} {d : NodeType} {a b : Str}
    (p1 : preString w r d = .ok a) (p2 : postString w r d = .ok b) :
    (writeNodes w [.mk i r c d none]).panic = none ∧ (writeNodes w [.mk i r c d none]).text = a ++ b := by
  simp [writeNodes, writeNode, p1, p2, writeChunk, Written.andThen, Written.text]

theorem Yields.node {w : WriterEnv} {d : NodeType} {ls : List Str} {ss : List Shape} {a b txt : Str} (h : Yields w ss txt)
    (hp : ∀ r : Option (List Str), r.getD [] = ls → preString w r d = .ok a ∧ postString w r d = .ok b)
    (h1 : d.kind ≠ .Figure) (h2 : d.kind ≠ .ListTable) : Yields w [.labelled d ls ss] (a ++ txt ++ b) := by
  intro cs hcs
  cases cs with
  | nil => simp [shapesOf] at hcs
  | cons t cs =>
    simp only [shapesOf, List.cons.injEq] at hcs
    obtain ⟨ht, hcs⟩ := hcs
    obtain rfl : cs = [] := by cases cs <;> simp_all [shapesOf]
    obtain ⟨i, r, c, ch, cs, rfl, hch, hcs, hr⟩ := shape_children ht
    obtain ⟨cs', k1, k2, k3⟩ := h cs hcs
    obtain ⟨p1, p2⟩ := hp r hr
    rcases hch with rfl | ⟨rfl, rfl⟩
    · refine ⟨[.mk i r c d (some cs')], .cons (transformTree_of (transformHere_plain (t := .mk i r c d (some cs)) h1 h2) rfl k1) .nil, ?_⟩
      rw [← k3]; exact write_node k2 p1 p2
    · cases k1
      have e : txt = [] := by rw [← k3]; rfl
      refine ⟨[.mk i r c d none], .cons (transformTree_leaf rfl) .nil, ?_⟩
      rw [e, List.append_nil]
      exact write_leaf p1 p2

/-- The first node becomes a caption if it is a paragraph. -/
def captionFirst : List Shape → List Shape
  | .labelled (.Paragraph k) ls ss :: rest => .labelled (.Caption k) ls ss :: rest
  | ss => ss

theorem shape_captioned (t : TreeNode) (rest : List TreeNode) : shapesOf (captioned t :: rest) = captionFirst (shapesOf (t :: rest)) := by
  cases t with
  | mk i r c d ch => cases d <;> cases ch <;> simp [captioned, TreeNode.data, TreeNode.setData, shapesOf, shapeOf, captionFirst]

/-- A figure: the paragraph behind its image becomes the caption. -/
theorem Yields.figure {w : WriterEnv} {d : NodeType} {ls : List Str} {im : Shape} {ss : List Shape} {a b x txt : Str} (hi : Yields w [im] x)
    (h : Yields w (captionFirst ss) txt) (hd : d.kind = .Figure)
    (hp : ∀ r : Option (List Str), r.getD [] = ls → preString w r d = .ok a ∧ postString w r d = .ok b) :
    Yields w [.labelled d ls (im :: ss)] (a ++ (x ++ txt) ++ b) := by
  intro cs hcs
  cases cs with
  | nil => simp [shapesOf] at hcs
  | cons t cs =>
    simp only [shapesOf, List.cons.injEq] at hcs
    obtain ⟨ht, hcs⟩ := hcs
    obtain rfl : cs = [] := by cases cs <;> simp_all [shapesOf]
    obtain ⟨i, r, c, ch, cs, rfl, hch, hcs, hr⟩ := shape_children ht
    obtain ⟨p1, p2⟩ := hp r hr
    rcases hch with rfl | ⟨rfl, rfl⟩
    · have hsh : shapesOf (captionSecond cs) = im :: captionFirst ss := by
        match cs, hcs with
        | [u], e =>
          simp only [shapesOf, List.cons.injEq] at e
          obtain ⟨e1, rfl⟩ := e
          simp [captionSecond, shapesOf, captionFirst, e1]
        | u :: v :: us, e =>
          rw [shapesOf, List.cons.injEq] at e
          rw [captionSecond, shapesOf, shape_captioned, e.1, e.2]
      obtain ⟨cs', k1, k2, k3⟩ := (hi.append h) (captionSecond cs) hsh
      refine ⟨[.mk i r c d (some cs')], .cons (transformTree_of (t1 := .mk i r c d (some (captionSecond cs))) ?_ rfl k1) .nil, ?_⟩
      · unfold transformHere
        simp only [TreeNode.children]
        rw [if_pos (show (TreeNode.mk i r c d (some cs)).kind = .Figure from hd)]
        rfl
      · rw [← k3]; exact write_node k2 p1 p2
    · simp [shapesOf] at hcs

theorem yields_leaf {w : WriterEnv} {d : NodeType} {a : Str} (ha : ∀ r, preString w r d = .ok a ∧ postString w r d = .ok [])
    (h1 : d.kind ≠ .Figure) (h2 : d.kind ≠ .ListTable) : Yields w [.node d []] a := by
  simpa using Yields.node (d := d) (a := a) (b := []) (ls := []) (.nil w) (fun r _ => ha r) h1 h2

theorem yields_piece (w : WriterEnv) (p : Piece) : Yields w [p.shape] p.latex := by
  have hk : ∀ k ∈ pieceKinds, k ≠ Kind.Figure ∧ k ≠ Kind.ListTable := by decide
  obtain ⟨h1, h2⟩ := hk _ (piece_kind p)
  have hp : ∀ r, preString w r p.node = .ok p.latex ∧ postString w r p.node = .ok [] := by
    intro r
    cases p with
    | role r c => cases r <;> exact ⟨rfl, rfl⟩
    | _ => exact ⟨rfl, rfl⟩
  simpa [Piece.shape] using Yields.node (d := p.node) (a := p.latex) (b := []) (ls := p.labels) (.nil w) (fun r _ => hp r) h1 h2

theorem yields_pieces (w : WriterEnv) (ps : List Piece) :
    Yields w (ps.map Piece.shape) (ps.map Piece.latex).flatten := by
  induction ps with
  | nil => exact .nil w
  | cons p ps ih => simpa using (yields_piece w p).append ih

/-- A paragraph with targets before it: their labels are not written. -/
theorem yields_text (w : WriterEnv) (k : Nat) (ps : List Piece) (ls : List Str) :
    Yields w (labelFirst ls [paragraphShape k ps]) (paragraphLatex ps) :=
  Yields.node (d := .Paragraph k) (a := []) (b := str! "\n\n") (yields_pieces w ps)
    (fun _ _ => ⟨rfl, rfl⟩) (by simp [NodeType.kind]) (by simp [NodeType.kind])

theorem yields_paragraph (w : WriterEnv) (k : Nat) (ps : List Piece) : Yields w [paragraphShape k ps] (paragraphLatex ps) :=
  yields_text w k ps []

/-! ### Comments and directives -/

theorem yields_nodes {w : WriterEnv} (text : NodeType → Str) : ∀ (ns : List NodeType), (∀ n ∈ ns, Yields w [.node n []] (text n)) →
    Yields w (ns.map fun n => .node n []) (ns.map text).flatten
  | [], _ => .nil w
  | n :: ns, h => by simpa using (h n (by simp)).append (yields_nodes text ns fun x hx => h x (by simp [hx]))

theorem yields_both {w : WriterEnv} {d : NodeType} {a b : Str} (ha : ∀ r : Option (List Str), r.getD [] = [] →
    preString w r d = .ok a ∧ postString w r d = .ok b) (h1 : d.kind ≠ .Figure) (h2 : d.kind ≠ .ListTable) :
    Yields w [.node d []] (a ++ b) := by
  simpa using Yields.node (d := d) (a := a) (b := b) (ls := []) (.nil w) (fun r hr => ha r hr) h1 h2

theorem strLinesAux_line {l : Str} (h : '\n' ∉ l) : ∀ (cur rest : Str), strLinesAux (l ++ '\n' :: rest) cur =
    dropCr (cur.reverse ++ l) :: strLinesAux rest [] := by
  induction l with
  | nil => intro cur rest; simp [strLinesAux]
  | cons c l ih =>
    intro cur rest
    have hc : c ≠ '\n' := fun e => h (by simp [e])
    rw [List.cons_append, strLinesAux, if_neg hc, ih (fun hx => h (by simp [hx]))]
    simp

theorem dropCr_id {l : Str} (h : '\r' ∉ l) : dropCr l = l := by
  unfold dropCr
  split
  · rename_i e
    exact absurd (List.mem_of_getLast? e) h
  · rfl

theorem strLinesAux_last {l : Str} (h : '\n' ∉ l) (hr : '\r' ∉ l) : ∀ (cur : Str), '\r' ∉ cur → cur.reverse ++ l ≠ [] →
    strLinesAux l cur = [cur.reverse ++ l] := by
  induction l with
  | nil =>
    intro cur hcur hne
    simp only [List.append_nil] at hne ⊢
    have : cur ≠ [] := by simpa using hne
    simp [strLinesAux, this, dropCr_id (l := cur.reverse) (by simpa using hcur)]
  | cons c l ih =>
    intro cur hcur hne
    have hc : c ≠ '\n' := fun e => h (by simp [e])
    rw [strLinesAux, if_neg hc, ih (fun hx => h (by simp [hx])) (fun hx => hr (by simp [hx])) _ (by
      simp only [List.mem_cons, not_or]; exact ⟨fun e => hr (by rw [e]; simp), hcur⟩) (by simp)]
    simp

/-- Lines without line breaks that are joined and split again; the last line is not empty. -/
theorem strLines_unlines : ∀ {ls : List Str}, (∀ x ∈ ls, '\n' ∉ x ∧ '\r' ∉ x) → (∀ x, ls.getLast? = some x → x ≠ []) →
    strLines (unlines ls) = ls
  | [], _, _ => rfl
  | [l], h, hl => by
    have := strLinesAux_last (h l (by simp)).1 (h l (by simp)).2 [] (by simp) (by simpa using hl l (by simp))
    simpa [strLines, unlines] using this
  | l :: m :: ls, h, hl => by
    have ih := strLines_unlines (ls := m :: ls) (fun x hx => h x (by simp [hx])) (fun x hx => hl x (by simpa using hx))
    unfold strLines at ih ⊢
    rw [unlines, strLinesAux_line (h l (by simp)).1, ih]
    · simp [dropCr_id (h l (by simp)).2]
    · simp

theorem given_setting (key : Str) (v : Option Str) : given v (option key) = setting key v := by
  cases v <;> simp [given, setting, option]

theorem given_map {α : Type} (v : Option α) (key : Str) (f : α → Str) : given v (fun x => option key (f x)) = setting key (v.map f) := by
  cases v <;> simp [given, setting, option]

theorem lengthStr_text (w : WriterEnv) (l : Length) : lengthStr w l = lengthText w l := by cases l <;> rfl

theorem alignStr_text (a : HTMLAlignment) : htmlAlignStr a = alignText a := by cases a <;> rfl

theorem bracketed_eq (s : Str) : bracketed s = brackets s := by
  unfold bracketed brackets
  cases s <;> simp

theorem clear_text : ∀ x ∈ sides, clearStr x.2 = str! "clear=" ++ x.1 ++ str! "," := by decide

theorem clear_setting (v : Option Str) : given (v.bind (fromTable sides)) clearStr =
    setting (str! "clear") (v.filter fun t => (fromTable sides t).isSome) := by
  cases v with
  | none => rfl
  | some t =>
    cases e : fromTable sides t with
    | none => simp [given, setting, e, Option.filter]
    | some x =>
      have := clear_text _ (fromTable_mem e)
      simp [given, setting, e, Option.filter, this]

theorem status_text (s : AplusExerciseStatus) : outputStatus s = str! "status=" ++ statusText s ++ str! "," := by cases s <;> rfl

theorem input_text (d : Dir) (h : ∀ t, d.get (str! "type") = some t → InputType t) :
    given ((d.get (str! "type")).map inputKind) inputTypeStr ++
      inputFileStr ((d.get (str! "type")).map inputKind)
        (if d.get (str! "type") = some (str! "clickable") then d.get (str! "file") else none) = inputText d := by
  unfold inputText
  cases e : d.get (str! "type") with
  | none => rfl
  | some t =>
    rcases h t e with rfl | rfl | ⟨x, rfl, hx⟩
    · simp [given, inputKind, inputTypeStr, inputFileStr]
    · simp only [Option.map_some, if_true, given, Option.getD_some]
      cases d.get (str! "file") <;> simp [inputKind, inputTypeStr, inputFileStr, setting]
    · have h1 : inputKind (str! "dropdown:" ++ x) = .Dropdown x := by simp [inputKind]
      have h2 : ¬ str! "dropdown:" ++ x = str! "clickable" := by simp
      have h3 : ¬ some (str! "dropdown:" ++ x) = some (str! "clickable") := by simp
      simp only [Option.map_some, h1, if_neg h3, if_neg h2, given, Option.getD_some, inputTypeStr, inputFileStr]
      simp

theorem yields_one {w : WriterEnv} {d : NodeType} {ls : List Str} {a b txt : Str} (ha : ∀ r : Option (List Str), r.getD [] = ls →
    preString w r d = .ok a ∧ postString w r d = .ok b) (h1 : d.kind ≠ .Figure) (h2 : d.kind ≠ .ListTable) (e : txt = a ++ b) :
    Yields w [.labelled d ls []] txt := by
  rw [e]
  simpa using Yields.node (d := d) (a := a) (b := b) (.nil w) (fun r hr => ha r hr) h1 h2

theorem formula_text {w : WriterEnv} (t : Str) (n c : Option Str) (ls : List Str) :
    Yields w [.labelled (.MathBlock t n c) ls []] (anchoredFormula n ls t) := by
  refine yields_one (a := anchorString (.MathBlock t n c) (some ls) ++ str! "\\begin{equation}\n" ++ mathToLatex t ++ str! "\n")
    (b := str! "\\end{equation}\n\n") (fun r hr => ⟨by simp [preString, anchorString, anchorKind, hr], rfl⟩)
    (by simp [NodeType.kind]) (by simp [NodeType.kind]) ?_
  have e : anchor (str! "rstlabel") = fun n => str! "\\rstlabel{" ++ n ++ str! "}\n" := by funext x; simp [anchor]
  cases n <;> simp [anchoredFormula, anchorString, anchorKind, given, e]

/-- The text of a comment or directive with targets before it. -/
theorem yields_anchored (w : WriterEnv) (labels : List Str) (L : Leaf) (hL : L.Ok) :
    Yields w (labelFirst labels (L.nodes.map fun n => .node n [])) (L.anchoredLatex w labels) := by
  have he : ∀ {d : NodeType}, labelFirst labels [.node d []] = [.labelled d labels []] := by intro d; simp [labelFirst, Shape.node]
  cases L with
  | comment l ls =>
    have hlines : strLines (unlines (l :: ls)) = l :: ls := by
      obtain ⟨_, _, _, _, _, _, h1, x, h2, c, h3, _⟩ := hL
      refine strLines_unlines h1 fun y hy => ?_
      rw [h2] at hy
      cases hy
      rintro rfl
      simp at h3
    simp only [Leaf.nodes, List.map_cons, List.map_nil, he]
    refine yields_one (fun r hr => ⟨rfl, rfl⟩) (by simp [NodeType.kind]) (by simp [NodeType.kind]) ?_
    simp [Leaf.anchoredLatex, Leaf.latex, commentStr, given, hlines]
  | image d =>
    simp only [Leaf.nodes, List.map_cons, List.map_nil, he]
    refine yields_one (fun r hr => ⟨rfl, rfl⟩) (by simp [NodeType.kind]) (by simp [NodeType.kind]) ?_
    have e1 : lengthStr w = lengthText w := funext (lengthStr_text w)
    have e2 : htmlAlignStr = alignText := funext alignStr_text
    simp [Leaf.anchoredLatex, Leaf.latex, bracketed_eq, imageOptions, imageText, e1, e2]
  | code d gap ls =>
    simp only [Leaf.nodes, List.map_cons, List.map_nil, he]
    refine yields_one (fun r hr => ⟨rfl, rfl⟩) (by simp [NodeType.kind]) (by simp [NodeType.kind]) ?_
    simp [Leaf.anchoredLatex, Leaf.latex]
  | listing d gap ls tail =>
    simp only [Leaf.nodes, List.map_cons, List.map_nil, he]
    refine yields_one (fun r hr => ⟨rfl, rfl⟩) (by simp [NodeType.kind]) (by simp [NodeType.kind]) ?_
    by_cases ha : d.arg = [] <;> simp [Leaf.anchoredLatex, Leaf.latex, ha, given]
  | formula d =>
    simp only [Leaf.nodes, List.map_cons, List.map_nil, he]
    exact formula_text _ _ _ _
  | formulas d gap g more =>
    have key : ∀ (f : Nat → List Str → NodeType) (t : Nat → List Str → Str) (gs : List (List Str)),
        (∀ k g, Yields w [.node (f k g) []] (t k g)) → Yields w ((gs.mapIdx f).map fun n => .node n []) (gs.mapIdx t).flatten := by
      intro f t gs h
      induction gs generalizing f t with
      | nil => exact .nil w
      | cons g gs ih =>
        simp only [List.mapIdx_cons, List.map_cons, List.flatten_cons]
        exact (h 0 g).append (ih _ _ fun k g => h (k + 1) g)
    have e : ∀ (k : Nat) (n : Str), (if (g :: more.map (·.2)).length = 1 then n else n ++ decimal (k + 1)) =
        if more = [] then n else n ++ decimal (k + 1) := by
      intro k n; cases more <;> simp
    simp only [Leaf.nodes, Leaf.anchoredLatex, formulaNodes, e]
    simp only [List.mapIdx_cons, List.map_cons, List.flatten_cons, if_true, Nat.add_eq_zero_iff, Nat.one_ne_zero, and_false, if_false]
    have h1 := formula_text (w := w) (unlines g) ((d.get (str! "name")).map fun n => if more = [] then n else n ++ decimal (0 + 1)) (d.get (str! "class")) labels
    have := h1.append (key (fun k g => .MathBlock (unlines g) ((d.get (str! "name")).map fun n => if more = [] then n else n ++ decimal (k + 1 + 1)) (d.get (str! "class")))
      _ (more.map (·.2)) fun k x => formula_text _ _ _ _)
    simpa [labelFirst, Shape.node] using this
  | input d =>
    simp only [Leaf.nodes, List.map_cons, List.map_nil, he]
    refine yields_one (fun r hr => ⟨rfl, rfl⟩) (by simp [NodeType.kind]) (by simp [NodeType.kind]) ?_
    have e1 : lengthStr w = lengthText w := funext (lengthStr_text w)
    have e2 := input_text d hL.2.2.2.2
    have e3 : setting (str! "clear") (d.get (str! "clear")) = given ((d.get (str! "clear")).bind (fromTable sides)) clearStr := by
      rw [clear_setting]
      cases e : d.get (str! "clear") with
      | none => rfl
      | some t => simp [Option.filter, hL.2.2.2.1 t e]
    simp only [Leaf.anchoredLatex, Leaf.latex, bracketed_eq, given_setting, given_map, e1, e3, ← e2, List.append_assoc]
    simp
  | output d =>
    simp only [Leaf.nodes, List.map_cons, List.map_nil, he]
    refine yields_one (fun r hr => ⟨rfl, rfl⟩) (by simp [NodeType.kind]) (by simp [NodeType.kind]) ?_
    have e1 : lengthStr w = lengthText w := funext (lengthStr_text w)
    have hc : ∀ c, setting (str! "config") (some c) = option (str! "config") c := by intro c; simp [setting, option]
    obtain ⟨c, hcfg⟩ : ∃ c, d.get (str! "config") = some c := Option.isSome_iff_exists.mp hL.2.2.2.1
    have et : outputTypeStr (if d.get (str! "type") = some (str! "image") then .Image else .Text) =
        str! "type=" ++ (if d.get (str! "type") = some (str! "image") then str! "image" else str! "text") ++ str! "," := by
      split <;> rfl
    simp only [Leaf.anchoredLatex, Leaf.latex, bracketed_eq, given_setting, given_map, e1, clear_setting, status_text, hcfg, hc, et, flag, Option.getD_some,
      List.append_assoc]
    simp

theorem key_lower (d : Dir) : toLower d.key = d.key := by
  simp [Dir.key, toLower, lower_lower]

theorem submit_options (d : Dir) :
    submitOptions ((d.get (str! "config")).getD []) ((d.number 32 (str! "submissions")).getD 10)
      ((d.number 32 (str! "points-to-pass")).getD 0) ((d.get (str! "class")).getD []) ((d.get (str! "title")).getD [])
      ((d.get (str! "category")).getD (str! "submit")) (((d.get (str! "status")).bind (fromTable statuses)).getD .Unlisted)
      (d.has (str! "ajax")) (d.has (str! "allow-assistant-viewing")) (d.has (str! "allow-assistant-grading")) (d.has (str! "quiz"))
      ((d.get (str! "lti")).getD []) ((d.get (str! "lti_resource_link_id")).getD []) (d.has (str! "lti_open_in_iframe"))
      (d.has (str! "lti_aplus_get_and_post")) = submitText d := by
  have e : ∀ k v, nonEmptyItem k v = itemText k v := by
    intro k v; cases v <;> simp [nonEmptyItem, itemText]
  have e2 : ∀ x, submitStatus x = str! "status=" ++ submitStatusText x := by intro x; cases x <;> rfl
  have e3 : ∀ x : Str, (if x.isEmpty then [] else [str! "lti"]) = if x = [] then [] else [str! "lti"] := by intro x; cases x <;> simp
  simp only [submitOptions, submitText, e, e2, e3, Dir.switchItem]

/-- The text of a directive with blocks in it. -/
theorem yields_anchors (w : WriterEnv) (ls : List Str) (X : Box) (i : Nat) (hX : X.Ok) {ss : List Shape} {txt : Str}
    (h : Yields w (if X.isFigure then captionFirst ss else ss) txt) :
    Yields w [.labelled (X.node i) ls (X.kids.map (.node · []) ++ ss)] (X.opening w ++ txt ++ X.anchoredClosing ls) := by
  cases X with
  | poi d =>
    have e1 : lengthStr w = lengthText w := funext (lengthStr_text w)
    have e2 : ∀ k, flag (d.get k).isSome (k ++ str! ",") = d.switch k := fun k => rfl
    refine Yields.node (a := (Box.poi d).opening w) (b := (Box.poi d).closing) h (fun _ _ => ⟨?_, rfl⟩) (by simp [Box.node, NodeType.kind]) (by simp [Box.node, NodeType.kind])
    have e3 : flag (d.get (str! "hidden")).isSome (str! "hidden,") = d.switch (str! "hidden") := rfl
    have e4 : flag (d.get (str! "not_in_slides")).isSome (str! "not_in_slides,") = d.switch (str! "not_in_slides") := rfl
    have e5 : flag (d.get (str! "not_in_book")).isSome (str! "not_in_book,") = d.switch (str! "not_in_book") := rfl
    have e6 : flag (d.get (str! "no_poi_box")).isSome (str! "no_poi_box,") = d.switch (str! "no_poi_box") := rfl
    simp only [Box.node, Box.opening, preString, bracketed_eq, given_setting, given_map, e1, e3, e4, e5, e6]
  | submit d a =>
    refine Yields.node (a := (Box.submit d a).opening w) (b := (Box.submit d a).closing) h (fun _ _ => ⟨?_, rfl⟩) (by simp [Box.node, NodeType.kind]) (by simp [Box.node, NodeType.kind])
    simp only [Box.node, Box.opening, preString, submit_options]
  | figure d =>
    have e1 : lengthStr w = lengthText w := funext (lengthStr_text w)
    have hi : Yields w [.node (figureImage d) []] (str! "\\includegraphics" ++ brackets (joinWith (str! ",") (figureText w d)) ++
        str! "{" ++ d.arg ++ str! "}\n") := by
      refine yields_one (fun r hr => ⟨rfl, rfl⟩) (by simp [figureImage, NodeType.kind]) (by simp [figureImage, NodeType.kind]) ?_
      simp [bracketed_eq, imageOptions, figureText, e1]
    have := Yields.figure (ls := ls) (d := (Box.figure d).node i) (a := str! "\\begin{center}\n") (b := (Box.figure d).anchoredClosing ls) (ss := ss) hi
      (by simpa [Box.isFigure] using h) rfl (fun r hr => ⟨rfl, by
        have ea : anchor (str! "label") = fun n => str! "\\label{" ++ n ++ str! "}\n" := by funext x; simp [anchor]
        cases e : d.get (str! "name") <;> simp [Box.node, Box.anchoredClosing, postString, anchorString, anchorKind, hr, given, ea, e, List.flatMap]⟩)
    simpa [Box.kids, Box.opening] using this
  | admonition d => exact h.node (fun _ _ => ⟨by simp [Box.node, Box.opening, preString], rfl⟩) (by simp [Box.node, NodeType.kind]) (by simp [Box.node, NodeType.kind])
  | only d => exact h.node (fun _ _ => ⟨by simp [Box.node, Box.opening, preString], rfl⟩) (by simp [Box.node, NodeType.kind]) (by simp [Box.node, NodeType.kind])
  | unknown d =>
    refine h.node (fun _ _ => ⟨?_, ?_⟩) (by simp [Box.node, NodeType.kind]) (by simp [Box.node, NodeType.kind])
    · have harg : (trim d.arg).isEmpty = d.arg.isEmpty := by
        rcases hX.2.2.1 with e | e
        · rw [e]; rfl
        · rw [e.trim]
      simp only [Box.node, Box.opening, preString, key_lower, unknownOptions, harg]
      simp
    · simp only [Box.node, Box.anchoredClosing, Box.closing, postString, key_lower]
  | note d =>
    have hmem : ∀ x ∈ notes, (∀ t, x.2 ≠ .Admonition t) ∧ admonitionStr x.2 = x.1 := by
      simp [notes, admonitionStr]
    obtain ⟨v, hv⟩ := Option.isSome_iff_exists.mp hX.2.1
    obtain ⟨h1, h2⟩ := hmem _ (fromTable_mem hv)
    refine h.node (fun _ _ => ⟨?_, ?_⟩) (by simp [Box.node, NodeType.kind]) (by simp [Box.node, NodeType.kind])
    · simp only at h1 h2
      simp only [Box.node, hv, Option.getD_some, Box.opening, ← h2]
      cases v <;> first | rfl | exact absurd rfl (h1 _)
    · simp only at h1 h2
      simp only [Box.node, hv, Option.getD_some, Box.anchoredClosing, Box.closing, ← h2]
      cases v <;> first | rfl | exact absurd rfl (h1 _)

theorem anchoredClosing_nil (X : Box) : X.anchoredClosing [] = X.closing := by
  cases X with
  | figure d => cases e : d.get (str! "name") <;> simp [Box.anchoredClosing, Box.closing, e]
  | _ => rfl

theorem yields_box (w : WriterEnv) (X : Box) (i : Nat) (hX : X.Ok) {ss : List Shape} {txt : Str}
    (h : Yields w (if X.isFigure then captionFirst ss else ss) txt) :
    Yields w [.node (X.node i) (X.kids.map (.node · []) ++ ss)] (X.opening w ++ txt ++ X.closing) := by
  have := yields_anchors w [] X i hX h
  rwa [anchoredClosing_nil] at this

theorem captionFirst_leaf {L : Leaf} (rest : List Shape) : captionFirst ((L.nodes.map fun n => .node n []) ++ rest) =
    (L.nodes.map fun n => .node n []) ++ rest := by
  cases L <;> simp [Leaf.nodes, formulaNodes, captionFirst, Shape.node]

theorem captionFirst_anchored (ls : List Str) (L : Leaf) (rest : List Shape) : captionFirst (labelFirst ls (L.nodes.map fun n => .node n []) ++ rest) =
    labelFirst ls (L.nodes.map fun n => .node n []) ++ rest := by
  cases L <;> simp [Leaf.nodes, formulaNodes, captionFirst, Shape.node, labelFirst]

theorem yields_captions (w : WriterEnv) (k : Nat) (ps : List Piece) (ls : List Str) :
    Yields w (captionFirst (labelFirst ls [paragraphShape k ps])) (captionLatex ps) :=
  Yields.node (d := .Caption k) (a := str! "\\captionof{figure}{") (b := str! "}\n") (yields_pieces w ps)
    (fun _ _ => ⟨rfl, rfl⟩) (by simp [NodeType.kind]) (by simp [NodeType.kind])

theorem yields_caption (w : WriterEnv) (k : Nat) (ps : List Piece) :
    Yields w [.node (.Caption k) (ps.map Piece.shape)] (captionLatex ps) := yields_captions w k ps []

theorem anchoredLatex_nil (w : WriterEnv) (L : Leaf) : L.anchoredLatex w [] = L.latex w := by
  have e : ∀ n t, anchoredFormula n [] t = formulaText n t := by
    intro n t; cases n <;> simp [anchoredFormula, formulaText]
  cases L with
  | formula d => exact e _ _
  | formulas d gap g more => simp only [Leaf.anchoredLatex, Leaf.latex, ite_self, e]
  | _ => rfl

/-- The text of a comment or directive. -/
theorem yields_block (w : WriterEnv) (L : Leaf) (hL : L.Ok) : Yields w (L.nodes.map fun n => .node n []) (L.latex w) := by
  have := yields_anchored w [] L hL
  rwa [labelFirst_nil, anchoredLatex_nil] at this

/-! ### Questionnaires -/

theorem yields_map {α : Type} {w : WriterEnv} (f : α → Shape) (t : α → Str) : ∀ (xs : List α), (∀ x ∈ xs, Yields w [f x] (t x)) →
    Yields w (xs.map f) (xs.map t).flatten
  | [], _ => .nil w
  | x :: xs, h => by simpa using (h x (by simp)).append (yields_map f t xs fun y hy => h y (by simp [hy]))

theorem yields_choice (w : WriterEnv) (c : Choice) : Yields w [c.shape] c.latex := by
  have := Yields.node (w := w) (d := .AplusPickChoice c.label (c.mark == some .right) c.selected (c.mark == some .neutral)) (ls := [])
    (a := markLatex c.mark) (b := str! " \\label{" ++ c.label ++ str! "}\n") (yields_pieces w c.answer)
    (fun _ _ => ⟨by cases e : c.mark with
      | none => rfl
      | some m => cases m <;> rfl, rfl⟩) (by simp [NodeType.kind]) (by simp [NodeType.kind])
  simpa [Choice.shape, Choice.latex, List.append_assoc] using this

theorem yields_hint (w : WriterEnv) (type : AplusQuestionnaireType) (h : Hint) : Yields w [h.shape type] (h.latex type) := by
  have := Yields.node (w := w) (d := .AplusQuestionnaireHint h.label h.missing type) (ls := [])
    (a := str! "\\feedback{" ++ (if h.missing then [] else str! "!") ++
      (if type = .FreeText then [] else str! "\\ref{" ++ h.label ++ str! "}") ++ str! "}{") (b := str! "}\n") (yields_pieces w h.text)
    (fun _ _ => ⟨by cases type <;> cases e : h.missing <;> rfl, rfl⟩) (by simp [NodeType.kind]) (by simp [NodeType.kind])
  simpa [Hint.shape, Hint.latex, List.append_assoc] using this

theorem yields_hints (w : WriterEnv) (type : AplusQuestionnaireType) (k : Nat) (h : Hints) :
    Yields w [h.shape type k] (h.latex type) := by
  have := Yields.node (w := w) (d := .AplusQuestionnaireHints k) (ls := []) (a := []) (b := str! "\n")
    (yields_map (Hint.shape type) (Hint.latex type) h.hints fun x _ => yields_hint w type x)
    (fun _ _ => ⟨rfl, rfl⟩) (by simp [NodeType.kind]) (by simp [NodeType.kind])
  simpa [Hints.shape, Hints.latex] using this

theorem yields_choices (w : WriterEnv) (k : Nat) (cs : List Choice) :
    Yields w [.node (.AplusPickChoices k) (cs.map Choice.shape)] (str! "\\begin{answers}\n" ++ (cs.map Choice.latex).flatten ++
      str! "\\end{answers}\n\n") :=
  Yields.node (w := w) (d := .AplusPickChoices k) (ls := []) (a := str! "\\begin{answers}\n") (b := str! "\\end{answers}\n\n")
    (yields_map Choice.shape Choice.latex cs fun x _ => yields_choice w x)
    (fun _ _ => ⟨rfl, rfl⟩) (by simp [NodeType.kind]) (by simp [NodeType.kind])

theorem yields_task (w : WriterEnv) (k : Nat) (t : Option Task) :
    Yields w (t.map fun t => paragraphShape k t.pieces).toList ((t.map fun t => paragraphLatex t.pieces).getD []) := by
  cases t with
  | none => exact .nil w
  | some t => exact yields_paragraph w k t.pieces

theorem pick_pre (w : WriterEnv) (r : Option (List Str)) (any : Bool) (d : Dir) (k : Nat) : preString w r (pickNode any d k) =
    .ok (str! "\\begin{pick}" ++ brackets (pickText any d) ++ (if any then str! "{any}{" else str! "{one}{") ++
      decimal ((parseUint 32 d.arg).getD 0) ++ str! "}\n") := by
  have e1 : ∀ k, flag (d.has k) (k ++ str! ",") = d.switch k := fun k => rfl
  have e3 : flag (d.has (str! "required")) (str! "required,") = d.switch (str! "required") := rfl
  have e4 : flag (d.has (str! "partial-points")) (str! "partial-points,") = d.switch (str! "partial-points") := rfl
  have e5 : flag (d.has (str! "preserve-questions-between-attempts")) (str! "preserve-questions-between-attempts,") =
    d.switch (str! "preserve-questions-between-attempts") := rfl
  cases any with
  | false =>
    simp only [pickNode, Bool.false_eq_true, if_false, preString, bracketed_eq, given_setting, e3, pickText, List.append_nil,
      List.append_assoc]
  | true =>
    have e6 : flag (d.has (str! "randomized") && d.has (str! "correct-count")) (str! "randomized,") ++
        given (if d.has (str! "randomized") && d.has (str! "correct-count") then d.number 32 (str! "correct-count") else none)
          (fun n => option (str! "correct-count") (decimal n)) =
        if d.has (str! "randomized") && d.has (str! "correct-count") then
          str! "randomized," ++ setting (str! "correct-count") ((d.number 32 (str! "correct-count")).map decimal) else [] := by
      rw [given_map]
      cases h : d.has (str! "randomized") && d.has (str! "correct-count")
      · rfl
      · rfl
    have e7 : ∀ t, flag (d.has (str! "randomized") && d.has (str! "correct-count")) (str! "randomized,") ++
        (given (if d.has (str! "randomized") && d.has (str! "correct-count") then d.number 32 (str! "correct-count") else none)
          (fun n => option (str! "correct-count") (decimal n)) ++ t) =
        (if d.has (str! "randomized") && d.has (str! "correct-count") then
          str! "randomized," ++ setting (str! "correct-count") ((d.number 32 (str! "correct-count")).map decimal) else []) ++ t := by
      intro t; rw [← List.append_assoc, e6]
    simp only [pickNode, if_true, preString, bracketed_eq, given_setting, e3, e4, e5, pickText, List.append_assoc, e7]

theorem yields_entry (w : WriterEnv) (i : Nat) (E : Entry) : Yields w [E.shape i] E.latex := by
  cases E with
  | text g ps gap => exact yields_paragraph w i ps
  | pick any d gap task choices hints =>
    have hk : (pickNode any d (i + 3)).kind ≠ .Figure ∧ (pickNode any d (i + 3)).kind ≠ .ListTable := by
      cases any <;> simp [pickNode, NodeType.kind]
    have := Yields.node (w := w) (d := pickNode any d (i + 3)) (ls := []) (b := str! "\\end{pick}\n\n")
      ((yields_task w (i + 3) task).append ((yields_choices w (i + 3) choices).append (yields_hints w (pickType any) (i + 3) hints)))
      (fun r _ => ⟨pick_pre w r any d (i + 3), by cases any <;> rfl⟩) hk.1 hk.2
    simpa [Entry.shape, Entry.latex, List.append_assoc] using this
  | free d points method gap task answer hints =>
    have := Yields.node (w := w) (d := freeNode d points method answer (i + 3)) (ls := []) (a := str! "\\begin{freetext}{" ++ method ++ str! "}{" ++
      decimal ((parseUint 32 points).getD 0) ++ str! "}{" ++ answer ++ str! "}\n") (b := str! "\\end{freetext}\n\n")
      ((yields_paragraph w (i + 3) task.pieces).append (yields_hints w .FreeText (i + 3) hints))
      (fun r _ => ⟨rfl, rfl⟩) (by simp [freeNode, NodeType.kind]) (by simp [freeNode, NodeType.kind])
    simpa [Entry.shape, Entry.latex, List.append_assoc] using this

/-! ### List tables -/

/-- The nodes of the cells of a row after the transformations: the last one is marked. -/
def entryShapes (k : Nat) : List Cell → List Shape
  | [] => []
  | [c] => [.node (.Entry true) [paragraphShape (k + 2) c.pieces]]
  | c :: d :: cs => .node (.Entry false) [paragraphShape (k + 2) c.pieces] :: entryShapes k (d :: cs)

/-- The node of a row after the transformations. -/
def rowShape (k : Nat) (r : Row) : Shape := .node .TRow (entryShapes (k + 2) r.cells)

theorem shapeOf_setData {t : TreeNode} {d d' : NodeType} {ls : List Str} {ss : List Shape} (h : shapeOf t = .labelled d ls ss) :
    shapeOf (t.setData d') = .labelled d' ls ss := by
  obtain ⟨i, r, c, ch, cs, rfl, hch, h1, h2⟩ := shape_children h
  rcases hch with rfl | ⟨rfl, rfl⟩
  · simp [TreeNode.setData, shapeOf, h1, h2]
  · simp only [shapesOf] at h1
    simp [TreeNode.setData, shapeOf, ← h1, h2]

theorem marked_shapes {b : Char} {k : Nat} : ∀ {cells : List Cell} {cs : List TreeNode}, shapesOf cs = cells.map (Cell.shape b k) →
    shapesOf (markEntries cs) = entryShapes k cells
  | [], cs, h => by
    obtain rfl : cs = [] := by cases cs <;> simp_all [shapesOf]
    rfl
  | [c], cs, h => by
    obtain ⟨x, xs, rfl, h1, h2⟩ := shapesOf_inv h
    obtain rfl : xs = [] := by cases xs <;> simp_all [shapesOf]
    simp only [markEntries, shapesOf, entryShapes, shapeOf_setData (d' := .Entry true) h1]
  | c :: d :: cells, cs, h => by
    obtain ⟨x, xs, rfl, h1, h2⟩ := shapesOf_inv h
    have ih := marked_shapes h2
    obtain ⟨y, ys, rfl, h3, h4⟩ := shapesOf_inv h2
    simp only [markEntries, shapesOf, entryShapes, shapeOf_setData (d' := .Entry false) h1]
    rw [← ih]

theorem row_transformed {b : Char} {k : Nat} {r : Row} (hr : r.Ok) {t : TreeNode} (h : shapeOf t = r.shape b k) :
    ∃ t', rowOf t = .ok t' ∧ shapeOf t' = rowShape k r := by
  obtain ⟨i, rn, c, ch, cs, rfl, hch, h1, h2⟩ := shape_children h
  obtain ⟨x, xs, rfl, h3, h4⟩ := shapesOf_inv h1
  obtain rfl : xs = [] := by cases xs <;> simp_all [shapesOf]
  rcases hch with rfl | ⟨_, e⟩
  · obtain ⟨i', rn', c', ch', cells, rfl, hch', h5, h6⟩ := shape_children h3
    obtain ⟨y, ys, e⟩ := List.exists_cons_of_ne_nil hr.notEmpty
    have hne : cells ≠ [] := by
      rintro rfl
      rw [e] at h5
      simp [shapesOf] at h5
    rcases hch' with rfl | ⟨_, e⟩
    · refine ⟨_, rowOf_good rfl rfl rfl rfl hne, ?_⟩
      simp only [TreeNode.setData, TreeNode.setChildren, shapeOf, h2, marked_shapes h5]
      rfl
    · exact absurd e hne
  · cases e

theorem rows_transformed {b : Char} {k : Nat} : ∀ {rows : List Row} {ts : List TreeNode}, (∀ r ∈ rows, r.Ok) →
    shapesOf ts = rows.map (Row.shape b k) → ∃ ts', rowsOf ts = .ok ts' ∧ shapesOf ts' = rows.map (rowShape k)
  | [], ts, _, h => by
    obtain rfl : ts = [] := by cases ts <;> simp_all [shapesOf]
    exact ⟨[], rfl, rfl⟩
  | r :: rows, ts, hr, h => by
    obtain ⟨x, xs, rfl, h1, h2⟩ := shapesOf_inv h
    obtain ⟨t', k1, k2⟩ := row_transformed (hr r (by simp)) h1
    obtain ⟨ts', k3, k4⟩ := rows_transformed (fun x hx => hr x (by simp [hx])) h2
    exact ⟨t' :: ts', by simp only [rowsOf, k1, k3, bind, Except.bind]; rfl, by rw [shapesOf, k2, k4]; rfl⟩

theorem yields_cells (w : WriterEnv) (k : Nat) : ∀ cs : List Cell, Yields w (entryShapes k cs) (cellsLatex cs)
  | [] => .nil w
  | [c] => by
    have := Yields.node (w := w) (d := .Entry true) (ls := []) (a := []) (b := []) (yields_paragraph w (k + 2) c.pieces) (fun _ _ => ⟨rfl, rfl⟩) (by simp [NodeType.kind]) (by simp [NodeType.kind])
    simpa [entryShapes, cellsLatex] using this
  | c :: d :: cs => by
    have := (Yields.node (w := w) (d := .Entry false) (ls := []) (a := []) (b := str! "&\n") (yields_paragraph w (k + 2) c.pieces) (fun _ _ => ⟨rfl, rfl⟩)
      (by simp [NodeType.kind]) (by simp [NodeType.kind])).append (yields_cells w k (d :: cs))
    simpa [entryShapes, cellsLatex, List.append_assoc] using this

theorem yields_row (w : WriterEnv) (k : Nat) (r : Row) : Yields w [rowShape k r] r.latex := by
  have := Yields.node (w := w) (d := .TRow) (ls := []) (a := []) (b := str! "\\\\\n") (yields_cells w (k + 2) r.cells) (fun _ _ => ⟨rfl, rfl⟩)
    (by simp [NodeType.kind]) (by simp [NodeType.kind])
  simpa [rowShape, Row.latex] using this

theorem widths_text (w : WriterEnv) (W : Widths) (count : Nat) : columnSpec w (W.columns count) = W.latex w count := by
  cases W with
  | same => simp [columnSpec, Widths.columns, Widths.latex, List.map_replicate, columnLatex]
  | auto => rfl
  | given n ns => simp [columnSpec, Widths.columns, Widths.latex, columnLatex, Function.comp_def]

/-- The text of a list table. -/
theorem yields_table (w : WriterEnv) (T : Table) (hT : T.Ok) (i : Nat) : Yields w [T.shape i] (T.latex w) := by
  intro cs hcs
  obtain ⟨t, ts, rfl, ht, hts⟩ := shapesOf_inv hcs
  obtain rfl : ts = [] := by cases ts <;> simp_all [shapesOf]
  obtain ⟨j, r, c, ch, cs, rfl, hch, hcs, hr⟩ := shape_children ht
  obtain ⟨L, Ls, rfl, hL, hLs⟩ := shapesOf_inv hcs
  obtain rfl : Ls = [] := by cases Ls <;> simp_all [shapesOf]
  rcases hch with rfl | ⟨_, e⟩
  · obtain ⟨j', r', c', ch', items, rfl, hch', hitems, hr'⟩ := shape_children hL
    obtain ⟨y, ys, e⟩ := List.exists_cons_of_ne_nil hT.notEmpty
    have hne : items ≠ [] := by
      rintro rfl
      rw [e] at hitems
      simp [shapesOf] at hitems
    rcases hch' with rfl | ⟨_, e⟩
    · obtain ⟨rows, k1, k2⟩ := rows_transformed hT.rows hitems
      have hbody : shapesOf [TreeNode.mk j' r' c' .TBody (some rows)] = [.node .TBody (T.rows.map (rowShape (i + 3)))] := by
        simp only [shapesOf, shapeOf, k2, hr']
      have hy := Yields.node (w := w) (d := .TBody) (ls := []) (a := []) (b := str! "\n")
        (yields_map (rowShape (i + 3)) Row.latex T.rows fun x _ => yields_row w (i + 3) x) (fun _ _ => ⟨rfl, rfl⟩)
        (by simp [NodeType.kind]) (by simp [NodeType.kind])
      obtain ⟨cs', m1, m2, m3⟩ := hy _ hbody
      have hhere : transformHere (.mk j r c (T.node (i + 3)) (some [.mk j' r' c' (.BulletList T.bullet (i + 3) (i + 5)) (some items)])) =
          .ok (.mk j r c (T.node (i + 3)) (some [.mk j' r' c' .TBody (some rows)])) := by
        unfold transformHere
        have hk : (TreeNode.mk j r c (T.node (i + 3)) (some [.mk j' r' c' (.BulletList T.bullet (i + 3) (i + 5)) (some items)])).kind = .ListTable := rfl
        simp only [TreeNode.children, hk]
        simp only [tableChildren, tableBody, bind, Except.bind, TreeNode.children, k1]
        rfl
      refine ⟨[.mk j r c (T.node (i + 3)) (some cs')], .cons (transformTree_of hhere rfl m1) .nil, ?_⟩
      have hpre : preString w r (T.node (i + 3)) = .ok (str! "\\begin{tabular}" ++ (if T.dir.arg = [] then [] else str! "[title=" ++ T.dir.arg ++ str! "]") ++ str! "{" ++
          T.widths.latex w T.columns ++ str! "}\n") := by
        simp only [Table.node, preString, widths_text]
        split <;> simp [given]
      obtain ⟨n1, n2⟩ := write_node (i := j) (c := c) m2 hpre (b := str! "\\end{tabular}\n\n") (r := r) rfl
      refine ⟨n1, ?_⟩
      rw [n2, m3]
      simp [Table.latex, List.append_assoc]
    · exact absurd e hne
  · cases e

/-- The text of a part. -/
theorem yields_part (w : WriterEnv) (X : Part) (hX : X.Ok) (i : Nat) (fig : Bool) :
    Yields w (if fig then captionFirst (X.shapes i) else X.shapes i) (X.latex w fig) := by
  have hV : ∀ V : Verbatim, Yields w [V.shape] V.latex := fun V => by
    have := Yields.node (d := .LiteralBlock V.text) (ls := []) (a := str! "\\begin{codeblock}\n" ++ escapeText V.text) (b := str! "\n\\end{codeblock}\n\n")
      (.nil w) (fun _ _ => ⟨rfl, rfl⟩) (by simp [NodeType.kind]) (by simp [NodeType.kind])
    simpa [Verbatim.latex, Verbatim.shape] using this
  cases X with
  | anchored ts L gap =>
    have := yields_anchored w (ts.map Target.label) L hX.2.2.1
    have e := captionFirst_anchored (ts.map Target.label) L []
    simp only [List.append_nil] at e
    cases fig
    · exact this
    · rw [if_pos rfl, Part.shapes, e]; exact this
  | anchoredText ts g ps gap =>
    cases fig with
    | false => exact yields_text w i ps _
    | true => exact yields_captions w i ps _
  | bare gap V => cases fig <;> simpa [Part.shapes, Part.latex, captionFirst, Verbatim.shape] using hV V
  | literal g ps gap V =>
    replace hV := hV V
    cases fig with
    | false => simpa [Part.shapes, Part.latex] using (yields_paragraph w i ps).append hV
    | true => simpa [Part.shapes, Part.latex, captionFirst, paragraphShape] using (yields_caption w i ps).append hV
  | quiz d a gap entries =>
    have := Yields.node (w := w) (d := quizNode d a (entries.map Entry.points).sum (i + 3)) (ls := [])
      (a := str! "\\begin{quiz}{" ++ a.key ++ str! "}{" ++ decimal (a.max.getD (entries.map Entry.points).sum) ++
      str! "}\n") (b := str! "\\end{quiz}\n\n")
      (yields_map (Entry.shape (i + 3)) Entry.latex entries fun x _ => yields_entry w (i + 3) x)
      (fun r _ => ⟨rfl, rfl⟩) (by simp [quizNode, NodeType.kind]) (by simp [quizNode, NodeType.kind])
    cases fig <;> simpa [Part.shapes, Part.latex, captionFirst, quizNode, List.append_assoc] using this
  | table T => cases fig <;> exact yields_table w T hX i
  | columns d gap xs =>
    have hflow : ∀ xs : List Flow, (∀ x ∈ xs, x.Ok) → Yields w (xs.flatMap (Flow.shapes (i + 3))) (xs.map (Flow.latex w)).flatten := by
      intro xs
      induction xs with
      | nil => intro _; exact .nil w
      | cons x xs ih =>
        intro h
        rw [List.flatMap_cons, List.map_cons, List.flatten_cons]
        refine Yields.append ?_ (ih fun y hy => h y (by simp [hy]))
        have hx := h x (by simp)
        cases x with
        | text g ps gap => exact yields_paragraph w _ ps
        | leaf L gap => exact yields_block w L hx.1
        | column gap =>
          have := Yields.node (w := w) (d := .AplusColBreak) (ls := []) (a := str! "\\newcol\n\n") (b := []) (.nil w) (fun _ _ => ⟨rfl, rfl⟩)
            (by simp [NodeType.kind]) (by simp [NodeType.kind])
          simpa [Flow.shapes, Flow.latex] using this
    have := yields_box w (.poi d) i ⟨hX.1, hX.2.1⟩ (hflow xs hX.2.2.2.2.2)
    cases fig <;> exact this

theorem captionFirst_part (X : Part) (i : Nat) (rest : List Shape) : captionFirst (X.shapes i ++ rest) = captionFirst (X.shapes i) ++ rest := by
  cases X with
  | anchored ts L gap =>
    have e := captionFirst_anchored (ts.map Target.label) L []
    simp only [List.append_nil] at e
    rw [Part.shapes, captionFirst_anchored, e]
  | _ => rfl

theorem yields_sign (w : WriterEnv) (s : Option Signature) : Yields w (signShapes s) (signLatex s) := by
  cases s with
  | none => exact .nil w
  | some s =>
    have := Yields.node (d := .Attribution s.author) (ls := []) (a := str! "-- " ++ s.author) (b := str! "\n")
      (.nil w) (fun _ _ => ⟨rfl, rfl⟩) (by simp [NodeType.kind]) (by simp [NodeType.kind])
    simpa [signShapes, signLatex] using this

theorem first_some {I : Items} (h : I ≠ .nil) : ∃ m, I.first = some m := by
  cases I with
  | nil => exact absurd rfl h
  | item m g ps gap body rest => exact ⟨m, rfl⟩

mutual
theorem yields_blocks (w : WriterEnv) : ∀ (B : Blocks) (i : Nat) (fig : Bool), B.Ok →
    Yields w (if fig then captionFirst (B.shapes i) else B.shapes i) (B.text w i fig)
  | .nil, _, fig, _ => by cases fig <;> exact .nil w
  | .para g ps gap rest, i, fig, h => by
    have hr : Yields w (rest.shapes i) (rest.text w i false) := yields_blocks w rest i false h.2.2.2
    cases fig with
    | false => simpa [Blocks.shapes, Blocks.text] using (yields_paragraph w i ps).append hr
    | true => simpa [Blocks.shapes, Blocks.text, captionFirst, paragraphShape] using (yields_caption w i ps).append hr
  | .list items rest, i, fig, h => by
    have hr : Yields w (rest.shapes i) (rest.text w i false) := yields_blocks w rest i false h.2.2.2.2.2.2
    obtain ⟨m, hm⟩ := first_some h.1
    have hnode : (m.list i items.count).kind ≠ .Figure ∧ (m.list i items.count).kind ≠ .ListTable := by
      cases m <;> simp [Tag.list, NodeType.kind]
    have := (Yields.node (w := w) (d := m.list i items.count) (ls := []) (a := str! "\\begin{" ++ m.environment ++ str! "}\n")
      (b := str! "\\end{" ++ m.environment ++ str! "}\n\n") (yields_items w items i h.2.1)
      (fun _ _ => by cases m <;> exact ⟨rfl, rfl⟩) hnode.1 hnode.2).append hr
    have e : (if fig then captionFirst ((Blocks.list items rest).shapes i) else (Blocks.list items rest).shapes i) =
        .node (m.list i items.count) (items.shapes i) :: rest.shapes i := by
      cases fig <;> cases m <;> simp [Blocks.shapes, listShapes, hm, captionFirst, Tag.list]
    rw [e]
    simpa [Blocks.text, listLatex, hm, List.append_assoc] using this
  | .leaf L gap rest, i, fig, h => by
    have hr : Yields w (rest.shapes i) (rest.text w i false) := yields_blocks w rest i false h.2.2.2
    have := (yields_block w L h.1).append hr
    have e : (if fig then captionFirst ((Blocks.leaf L gap rest).shapes i) else (Blocks.leaf L gap rest).shapes i) =
        (L.nodes.map fun n => .node n []) ++ rest.shapes i := by
      cases fig
      · rfl
      · exact captionFirst_leaf _
    rw [e]
    simpa [Blocks.text] using this
  | .box X gap body rest, i, fig, h => by
    have hr : Yields w (rest.shapes i) (rest.text w i false) := yields_blocks w rest i false h.2.2.2.2.2.2.2.2
    have := (yields_box w X i h.1 (yields_blocks w body (i + 3) X.isFigure h.2.2.2.2.2.2.1)).append hr
    have e : (if fig then captionFirst ((Blocks.box X gap body rest).shapes i) else (Blocks.box X gap body rest).shapes i) =
        (Blocks.box X gap body rest).shapes i := by
      cases fig
      · rfl
      · simp only [if_true, Blocks.shapes]
        cases X <;> rfl
    rw [e]
    simpa [Blocks.shapes, Blocks.text] using this
  | .classed d gap body rest, i, fig, h => by
    obtain ⟨_, _, _, _, _, _, _, _, _, _, hbody, _, hrest⟩ := h
    have hr : Yields w (rest.shapes i) (rest.text w i false) := yields_blocks w rest i false hrest
    have hb : Yields w (body.shapes (i + 3)) (body.text w (i + 3) false) := yields_blocks w body (i + 3) false hbody
    have := ((hb.append hb).node (d := .Class (i + 3) [d.arg]) (ls := []) (a := []) (b := []) (fun r _ => ⟨rfl, rfl⟩)
      (by simp [NodeType.kind]) (by simp [NodeType.kind])).append hr
    have e : (if fig then captionFirst ((Blocks.classed d gap body rest).shapes i) else (Blocks.classed d gap body rest).shapes i) =
        (Blocks.classed d gap body rest).shapes i := by
      cases fig <;> rfl
    rw [e]
    simpa [Blocks.shapes, Blocks.text, Shape.node] using this
  | .anchor ts X gap body rest, i, fig, h => by
    obtain ⟨_, hX, _, _, _, _, _, hbody, _, hrest⟩ := h
    have hr : Yields w (rest.shapes i) (rest.text w i false) := yields_blocks w rest i false hrest
    have := (yields_anchors w (ts.map Target.label) X i hX (yields_blocks w body (i + 3) X.isFigure hbody)).append hr
    have e : (if fig then captionFirst ((Blocks.anchor ts X gap body rest).shapes i) else (Blocks.anchor ts X gap body rest).shapes i) =
        (Blocks.anchor ts X gap body rest).shapes i := by
      cases fig
      · rfl
      · simp only [if_true, Blocks.shapes]
        cases X <;> rfl
    rw [e]
    simpa [Blocks.shapes, Blocks.text] using this
  | .part X rest, i, fig, h => by
    have hr : Yields w (rest.shapes i) (rest.text w i false) := yields_blocks w rest i false h.2.2
    have := (yields_part w X h.1 i fig).append hr
    have e : (if fig then captionFirst ((Blocks.part X rest).shapes i) else (Blocks.part X rest).shapes i) =
        (if fig then captionFirst (X.shapes i) else X.shapes i) ++ rest.shapes i := by
      cases fig
      · rfl
      · exact captionFirst_part X i _
    rw [e]
    simpa [Blocks.text] using this
  | .quote k body sign rest, i, fig, h => by
    have hr : Yields w (rest.shapes i) (rest.text w i false) := yields_blocks w rest i false h.2.2.2.2.2.2
    have hb : Yields w (body.shapes (i + (k + 1))) (body.text w (i + (k + 1)) false) := yields_blocks w body (i + (k + 1)) false h.2.2.2.1
    have := (Yields.node (d := .BlockQuote (i + (k + 1))) (ls := []) (a := str! "\\begin{quotation}\n") (b := str! "\\end{quotation}\n\n")
      (hb.append (yields_sign w sign)) (fun _ _ => ⟨rfl, rfl⟩) (by simp [NodeType.kind]) (by simp [NodeType.kind])).append hr
    cases fig <;> simpa [Blocks.shapes, Blocks.text, captionFirst, List.append_assoc] using this
  | .defs D rest, i, fig, h => by
    have hr : Yields w (rest.shapes i) (rest.text w i false) := yields_blocks w rest i false h.2.2.2
    have := (Yields.node (d := .DefinitionList i) (ls := []) (a := str! "\\begin{itemize}\n") (b := str! "\\end{itemize}\n\n")
      (yields_defs w D i h.2.1) (fun _ _ => ⟨rfl, rfl⟩) (by simp [NodeType.kind]) (by simp [NodeType.kind])).append hr
    cases fig <;> simpa [Blocks.shapes, Blocks.text, captionFirst, List.append_assoc] using this
  | .note N g ps gap body rest, i, fig, h => by
    have hr : Yields w (rest.shapes i) (rest.text w i false) := yields_blocks w rest i false h.2.2.2.2.2.2.2
    have hb : Yields w (body.shapes (i + N.wide)) (body.text w (i + N.wide) false) := yields_blocks w body (i + N.wide) false h.2.2.2.2.2.1
    have hk : (N.node i).kind ≠ .Figure ∧ (N.node i).kind ≠ .ListTable := by rw [note_kind]; cases N.foot <;> decide
    have := (Yields.node (w := w) (d := N.node i) (ls := [N.name]) (a := N.opening) (b := N.closing)
      ((yields_paragraph w (i + N.wide) ps).append hb) (fun _ _ => by
        unfold Note.node Note.opening Note.closing
        cases N.foot <;> exact ⟨rfl, rfl⟩) hk.1 hk.2).append hr
    have e : (if fig then captionFirst ((Blocks.note N g ps gap body rest).shapes i) else (Blocks.note N g ps gap body rest).shapes i) =
        (Blocks.note N g ps gap body rest).shapes i := by
      cases fig
      · rfl
      · simp only [if_true, Blocks.shapes]
        unfold Note.node
        cases N.foot <;> rfl
    rw [e]
    simpa [Blocks.shapes, Blocks.text, List.append_assoc] using this
  | .aside name g ps gap body rest, i, fig, h => by
    obtain ⟨hA, _, _, _, _, _, _, hbody, _, hrest⟩ := h
    have hr : Yields w (rest.shapes i) (rest.text w i false) := yields_blocks w rest i false hrest
    have hb : Yields w (body.shapes (i + 3)) (body.text w (i + 3) false) := yields_blocks w body (i + 3) false hbody
    have hd : (asideDir name []).Ok := ⟨hA.named, .inl rfl, by simp [asideDir]⟩
    have := (yields_box w (.note (asideDir name [])) i ⟨hd, hA.known, rfl⟩ ((yields_paragraph w (i + 3) ps).append hb)).append hr
    have e : (if fig then captionFirst ((Blocks.aside name g ps gap body rest).shapes i) else (Blocks.aside name g ps gap body rest).shapes i) =
        (Blocks.aside name g ps gap body rest).shapes i := by
      cases fig <;> rfl
    rw [e]
    have e1 : (Box.note ⟨name, [], []⟩).node i = asideNode i name := rfl
    simpa [Blocks.shapes, Blocks.text, List.append_assoc, Box.kids, Box.isFigure, Box.opening, Box.closing, e1, Dir.key, asideDir] using this
theorem yields_items (w : WriterEnv) : ∀ (I : Items) (i : Nat), I.Ok → Yields w (I.shapes i) (I.latex w i)
  | .nil, _, _ => .nil w
  | .item m g ps gap body rest, i, h => by
    have hb : Yields w (body.shapes (i + m.width)) (body.text w (i + m.width) false) := yields_blocks w body (i + m.width) false h.2.2.2.2.2.1
    have hnode : (m.item i).kind ≠ .Figure ∧ (m.item i).kind ≠ .ListTable := by
      cases m <;> simp [Tag.item, NodeType.kind]
    have := (Yields.node (w := w) (d := m.item i) (ls := []) (a := m.opening) (b := m.closing)
      ((yields_paragraph w (i + m.width) ps).append hb) (fun _ _ => by cases m <;> exact ⟨rfl, rfl⟩)
      hnode.1 hnode.2).append (yields_items w rest i h.2.2.2.2.2.2)
    simpa [Items.shapes, Items.latex, List.append_assoc] using this
theorem yields_defs (w : WriterEnv) : ∀ (D : Defs) (i : Nat), D.Ok → Yields w (D.shapes i) (D.latex w i)
  | .nil, _, _ => .nil w
  | .term t body rest, i, h => by
    have hb : Yields w (body.shapes (i + (t.deep + 1))) (body.text w (i + (t.deep + 1)) false) := yields_blocks w body (i + (t.deep + 1)) false h.2.2.2.1
    have hopen : ∀ r, preString w r (t.node i) = .ok (t.latex i) := by
      intro r
      unfold preString Term.node Term.latex
      cases t.classes <;> rfl
    have := (Yields.node (w := w) (d := t.node i) (ls := []) (a := t.latex i) (b := str! "\n")
      hb (fun r _ => ⟨hopen r, rfl⟩) (by simp [Term.node, NodeType.kind]) (by simp [Term.node, NodeType.kind])).append (yields_defs w rest i h.2.2.2.2)
    simpa [Defs.shapes, Defs.latex, List.append_assoc] using this
end

theorem yields_ruled (w : WriterEnv) : ∀ (more : List (Rule × Blocks)) {before : List Str}, ruledOk before more →
    Yields w (ruledShapes more) (ruledLatex w more)
  | [], _, _ => .nil w
  | x :: more, _, h => by
    have h1 : Yields w [.node .Transition []] (str! "\\hrulefill\n\n") :=
      yields_both (a := str! "\\hrulefill\n") (b := str! "\n") (fun _ _ => ⟨rfl, rfl⟩) (by simp [NodeType.kind]) (by simp [NodeType.kind])
    have h2 : Yields w (x.2.shapes 0) (x.2.text w 0 false) := yields_blocks w x.2 0 false h.2.2.2.1
    simpa [ruledShapes, ruledLatex] using (h1.append h2).append (yields_ruled w more h.2.2.2.2)

theorem titleCommand_eq {l : Nat} (h : 1 ≤ l) : sectionCommand l = titleCommand l := by
  unfold sectionCommand
  split
  · subst l; rfl
  · split
    · subst l; rfl
    · split
      · subst l; rfl
      · match l, h with
        | n + 4, _ => rfl
        | 1, _ => contradiction
        | 2, _ => contradiction
        | 3, _ => contradiction

theorem anchor_rst : anchor (str! "rstlabel") = fun l => str! "\\rstlabel{" ++ l ++ str! "}\n" := by
  funext l; simp [anchor]

theorem yields_forest (w : WriterEnv) : ∀ (n : Nat) (secs : List (Nat × Sec)), secs.length ≤ n →
    (∀ r ∈ secs, 1 ≤ r.1 ∧ r.2.Ok) →
    Yields w (forest secs) ((secs.map fun r => r.2.latex w r.1).flatten) := by
  intro n
  induction n with
  | zero =>
    intro secs hn _
    obtain rfl : secs = [] := List.length_eq_zero_iff.mp (by omega)
    rw [forest]; exact .nil w
  | succ n ih =>
    intro secs hn h
    cases secs with
    | nil => rw [forest]; exact .nil w
    | cons r rest =>
      obtain ⟨l, s⟩ := r
      obtain ⟨h1, hok⟩ := h (l, s) (by simp)
      have hsplit := List.takeWhile_append_dropWhile (p := fun r : Nat × Sec => decide (l < r.1)) (l := rest)
      rw [forest]
      generalize rest.takeWhile (fun r : Nat × Sec => decide (l < r.1)) = A at hsplit ⊢
      generalize rest.dropWhile (fun r : Nat × Sec => decide (l < r.1)) = B at hsplit ⊢
      subst hsplit
      simp only [List.length_cons, List.length_append] at hn
      have hA := ih A (by omega) fun r hr => h r (by simp [hr])
      have hB := ih B (by omega) fun r hr => h r (by simp [hr])
      have hbody : Yields w (s.body.shapes 0) (s.body.text w 0 false) := yields_blocks w s.body 0 false hok.2.2.2.2.2.1
      have := (Yields.node (d := .Section (trim s.title) l s.style) (ls := s.labels)
        (a := (s.labels.map fun l => str! "\\rstlabel{" ++ l ++ str! "}\n").flatten ++
          str! "\\" ++ titleCommand l ++ str! "{" ++ trim s.title ++ str! "}\n\n") (b := []) ((hbody.append (yields_ruled w s.more hok.2.2.2.2.2.2.1)).append hA)
        (fun r hr => ⟨by
          show Except.ok _ = _
          rw [titleCommand_eq h1]
          simp [anchorString, anchorKind, given, hr, anchor_rst], rfl⟩) (by simp [NodeType.kind]) (by simp [NodeType.kind])).append hB
      simpa [Sec.latex] using this

/-- The output for a document with the given tree. -/
theorem run_output {fuel : Nat} {w : WriterEnv} {stem folder : Str} {lines : List Str} {d : DocTree} {stack : List State} {t : TreeNode}
    {sh : Shape} {txt : Str} (h1 : parseDocument fuel stem folder lines = .ok (.eof d stack)) (h2 : IsDoc d.tree t) (h3 : shapeOf t = sh)
    (hy : Yields w [sh] txt) :
    (transpile fuel w stem folder lines).panic = none ∧ (transpile fuel w stem folder lines).text = txt := by
  obtain ⟨cs', k3, k1, k2⟩ := hy [t] (by simp [shapesOf, h3])
  obtain ⟨t', rfl, ht⟩ : ∃ t', cs' = [t'] ∧ transformTree t = .ok t' := by
    cases k3 with
    | cons h1 h2 => cases h2; exact ⟨_, rfl, h1⟩
  have hw : transpile fuel w stem folder lines = writeNode w t' := by
    unfold transpile
    rw [h1]
    have : d.transform = .ok { d with tree := { node := t', path := [] } } := by
      unfold DocTree.transform
      rw [show d.tree.walkToRoot = .ok ⟨t, []⟩ from h2]
      simp only [bind, Except.bind, ht, pure, Except.pure]
    simp only [ParsingResult.doc, this]
    rfl
  rw [hw]
  simp only [writeNodes] at k1 k2
  have hn : (writeNode w t').panic = none := by
    cases hx : (writeNode w t').panic with
    | none => rfl
    | some e => simp [Written.andThen, hx] at k1
  refine ⟨hn, ?_⟩
  rw [(andThen_text hn).2] at k2
  simpa [Written.text] using k2

/-- **C56.** The output for such a document: all its titles, paragraphs and lists in the order of
the source, every title behind a label made from it; for a full document this stands between the beginning and the end of a LaTeX document. -/
theorem C56_wrapped (fuel : Nat) (w : WriterEnv) (stem folder : Str) (p : Paper) (hp : p.Ok) (hne : p.lines ≠ [])
    (hfuel : roundsBound (textSize p.lines) ≤ fuel) :
    (transpile fuel w stem folder p.lines).panic = none ∧ (transpile fuel w stem folder p.lines).text =
      if w.fullDocument then str! "\\documentclass{aplus}\n\\begin{document}\n\n" ++ p.latex w ++ str! "\\end{document}\n" else p.latex w := by
  obtain ⟨d, stack, t, h1, h2, h3⟩ := C56_documents fuel stem folder p hp hne hfuel
  have hlev := leveled_withLevels [] p.secs
  have hy := Yields.node (d := .Document) (ls := []) (a := flag w.fullDocument (str! "\\documentclass{aplus}\n\\begin{document}\n\n"))
      (b := flag w.fullDocument (str! "\\end{document}\n"))
      ((show Yields w (p.pre.shapes 0) (p.pre.text w 0 false) from yields_blocks w p.pre 0 false hp.2.1).append (yields_ruled w p.more hp.2.2.1) |>.append
        (yields_forest w _ (withLevels [] p.secs) (Nat.le_refl _) fun r hr => ⟨(leveled_le hlev r hr).1, hp.2.2.2.1 _ (by
          have := List.mem_map_of_mem (f := (·.2)) hr
          rwa [withLevels_snd] at this)⟩))
      (fun r _ => ⟨rfl, rfl⟩) (by simp [NodeType.kind]) (by simp [NodeType.kind])
  obtain ⟨k1, k2⟩ := run_output (w := w) h1 h2 h3 (txt := if w.fullDocument then
      str! "\\documentclass{aplus}\n\\begin{document}\n\n" ++ p.latex w ++ str! "\\end{document}\n" else p.latex w) (by
    cases hf : w.fullDocument <;> simpa [Paper.shape, Paper.latex, flag, hf] using hy)
  exact ⟨k1, k2⟩

/-- **C56.** The output without the option for full documents. -/
theorem C56_output (fuel : Nat) (w : WriterEnv) (stem folder : Str) (p : Paper) (hp : p.Ok) (hne : p.lines ≠ [])
    (hfuel : roundsBound (textSize p.lines) ≤ fuel) (hfull : w.fullDocument = false) :
    (transpile fuel w stem folder p.lines).panic = none ∧ (transpile fuel w stem folder p.lines).text = p.latex w := by
  have := C56_wrapped fuel w stem folder p hp hne hfuel
  simpa [hfull] using this

/-- A document with four sections, nested lists, inline markup, comments and directives. -/
def samplePaper : Paper where
  lead := [[]]
  pre := .para [str! "*Lorem* ipsum 5%", str! "- dolor"]
    [.emph (str! "Lorem"), .space (str! " "), .word (str! "ipsum"), .space (str! " "), .word (str! "5%"), .space (str! "\n"),
     .word (str! "-"), .space (str! " "), .word (str! "dolor")] [[]]
    (.leaf (.comment (str! "amet") [[], str! "  sit", str! "dolor"]) [str! " "]
    (.box (.note ⟨str! "Warning", [], [(str! "class", str! "big")]⟩) [[]]
      (.para [str! "amet."] [.word (str! "amet.")] [[]]
        (.list (.item (.bullet '*') [str! "amet."] [.word (str! "amet.")] [[]] .nil .nil) .nil)) .nil))
  secs := [
    { title := str! "Dolor  sit: *amet*", char := '=', over := false, len := 3, gap := [],
      body := .list (.item (.bullet '*') [str! "**a**.", str! "b\\"]
          [.strong (str! "a"), .word (str! "."), .space (str! "\n"), .word (str! "b\\")] [[]]
          (.list (.item (.bullet '-') [str! "amet."] [.word (str! "amet.")] [] .nil
            (.item (.bullet '-') [str! ":math:`x`"] [.role .math (str! "x")] [str! " "] .nil .nil)) .nil)
        (.item (.bullet '*') [str! "amet."] [.word (str! "amet.")] [[]]
          (.box (.admonition ⟨str! "admonition", str! "Sit", [(str! "name", str! "a")]⟩) [[]]
            (.box (.unknown ⟨str! "hint2", [], [(str! "a", str! "b")]⟩) [[]]
              (.leaf (.image ⟨str! "image", str! "a.png", [(str! "alt", str! "sit")]⟩) [[]] .nil) .nil)
            (.leaf (.code ⟨str! "code-block", str! "c", []⟩ [[]] [str! "int a;", [], str! "  a++;"]) [[], []] .nil)) .nil)) .nil },
    { title := str! "amet.", char := '-', over := true, len := 5, gap := [[]],
      body := .para [str! "``a*b``"] [.literal (str! "a*b")] [[]] .nil },
    { title := str! "amet.", char := '=', over := false, len := 5, gap := [],
      body := .leaf (.formulas ⟨str! "math", [], [(str! "name", str! "eq")]⟩ [[]] [str! "a", str! " = b"] [([str! " "], [str! "c"])]) [[]]
        (.leaf (.formula ⟨str! "math", str! "e", []⟩) [[]]
        (.leaf (.input ⟨str! "ae-input", str! "in", [(str! "type", str! "dropdown:a,b"), (str! "clear", str! "left")]⟩) [[]]
        (.leaf (.output ⟨str! "ae-output", str! "out", [(str! "config", str! "c"), (str! "inputs", str! "in"),
          (str! "submissions", str! "12")]⟩) [[]] .nil))) },
    { title := str! "amet.", char := '=', over := false, len := 5, gap := [],
      body := .box (.figure ⟨str! "figure", str! "a.png", [(str! "width", str! "9px"), (str! "name", str! "Fig A")]⟩) [[]]
          (.para [str! "*Sit*", str! "amet."] [.emph (str! "Sit"), .space (str! "\n"), .word (str! "amet.")] [[]]
            (.para [str! "amet."] [.word (str! "amet.")] [[]] .nil))
        (.box (.poi ⟨str! "point-of-interest", str! "Sit amet", [(str! "id", str! "p1"), (str! "hidden", [])]⟩) [[]]
          (.box (.submit ⟨str! "submit", str! "ex1 B20", [(str! "config", str! "c.yaml"), (str! "ajax", [])]⟩
              ⟨str! "ex1", 1, str! "B", str! "20"⟩) [[]] .nil
            (.para [str! "amet."] [.word (str! "amet.")] [[]] .nil))
        (.list (.item (.bullet '+') [str! "amet."] [.word (str! "amet.")] [] .nil .nil) .nil)) }]

theorem samplePaper_ok : samplePaper.Ok := by decide +kernel

/-- One of the writers. -/
def sampleWriter : WriterEnv := ⟨false, fun _ => [], fun _ => [], id⟩

/-- The hypotheses are met by a document with sections, nested lists, markup and directives, and this is its output. -/
example : (transpile (roundsBound (textSize samplePaper.lines)) sampleWriter [] [] samplePaper.lines).text =
      str! "\\textit{Lorem} ipsum 5\\%\n- dolor\n\n% amet\n% \n%   sit\n% dolor\n\n\\begin{warning}\namet.\n\n\\begin{itemize}\n\\item amet.\n\n\\end{itemize}\n\n\\end{warning}\n\n\\rstlabel{dolor sit: *amet*}\n\\chapter{Dolor  sit: *amet*}\n\n\\begin{itemize}\n\\item \\textbf{a}.\nb\\textbackslash\n\n\\begin{itemize}\n\\item amet.\n\n\\item \\(x\\)\n\n\\end{itemize}\n\n\\item amet.\n\n\\begin{admonition}{Sit}\n\\begin{hint2}[a=b]\n\\includegraphics[sit]{a.png}\n\\end{hint2}\n\n\\end{admonition}\n\n\\begin{codeblock}[c]\nint a;\n\n  a++;\n\\end{codeblock}\n\n\\end{itemize}\n\n\\rstlabel{amet.}\n\\section{amet.}\n\n\\texttt{a*b}\n\n\\rstlabel{amet.}\n\\chapter{amet.}\n\n\\rstlabel{eq1}\n\\begin{equation}\na\n = b\n\\end{equation}\n\n\\rstlabel{eq2}\n\\begin{equation}\nc\n\\end{equation}\n\n\\begin{equation}\ne\n\\end{equation}\n\n\\aeinput[clear=left,type=dropdown:a,b,]{in}{}\n\n\\aeoutput[config=c,type=text,submissions=12,status=unlisted,]{out}{in}{}\n\n\\rstlabel{amet.}\n\\chapter{amet.}\n\n\\begin{center}\n\\includegraphics[width=px]{a.png}\n\\captionof{figure}{\\textit{Sit}\namet.}\namet.\n\n\\label{fig a}\n\\end{center}\n\n\\begin{poi}[id=p1,hidden,]{Sit amet}\n\n\\begin{submit}[config=c.yaml,submissions=10,points-to-pass=0,category=submit,status=unlisted,ajax]{ex1}{20}\n\\end{submit}\n\namet.\n\n\\end{poi}\n\n\\begin{itemize}\n\\item amet.\n\n\\end{itemize}\n\n" :=
  (C56_output _ sampleWriter [] [] samplePaper samplePaper_ok (by decide) (Nat.le_refl _) rfl).2.trans (by decide +kernel)

/-- The blocks in some more nested lists. -/
def nestedLists : Nat → Blocks
  | 0 => .nil
  | n + 1 => .list (.item (.bullet '*') [str! "amet."] [.word (str! "amet.")] [[]] (nestedLists n) .nil) .nil

/-- A list with `n + 1` levels and another list behind it. -/
def steps (n : Nat) : Paper := ⟨[], .list (.item (.bullet '*') [str! "amet."] [.word (str! "amet.")] [[]] (nestedLists n) .nil)
  (.list (.item (.bullet '+') [str! "amet."] [.word (str! "amet.")] [] .nil .nil) .nil), [], []⟩

/-- **C56 fails without a limit on the depth.** The parser gives up on a list with five levels that is followed by another
list, although it accepts one with four levels. -/
theorem C56_depth_violated :
    (match parseDocument 60 [] [] (steps 4).lines with | .ok (.failure _) => true | _ => false) = true ∧
    (match parseDocument 60 [] [] (steps 3).lines with | .ok (.eof ..) => true | _ => false) = true := by decide +kernel

end Rustla
