import Verif.Lemmas.Scan
import Verif.Lemmas.Items
import Verif.Spec.Leaves
import Verif.Spec.Targets
/-! # Comments and directives without blocks in them -/
namespace Rustla
open Spec

/-! ## Names -/

theorem lower_ws : ∀ {c : Char}, isWs c = false → isWs (lowerAscii c) = false := by
  intro c h
  unfold lowerAscii
  split
  · rename_i hc
    have hd : ∀ n : Nat, n < 26 → isWs (Char.ofNat (n + 97)) = false := by decide
    obtain ⟨h1, h2⟩ : 65 ≤ c.toNat ∧ c.toNat ≤ 90 := by simpa using hc
    have := hd (c.toNat - 65) (by omega)
    rwa [show c.toNat - 65 + 97 = c.toNat + 32 by omega] at this
  · exact h

theorem lower_lower (c : Char) : lowerAscii (lowerAscii c) = lowerAscii c := by
  unfold lowerAscii
  split
  · rename_i hc
    have hd : ∀ n : Nat, n < 26 → lowerAscii (Char.ofNat (n + 97)) = Char.ofNat (n + 97) := by decide
    obtain ⟨h1, h2⟩ : 65 ≤ c.toNat ∧ c.toNat ≤ 90 := by simpa using hc
    have := hd (c.toNat - 65) (by omega)
    rwa [show c.toNat - 65 + 97 = c.toNat + 32 by omega] at this
  · rfl

theorem splitWs_wordAux {s : Str} (h : ∀ c ∈ s, isWs c = false) : ∀ cur, (splitWsAux s cur).flatten = cur.reverse ++ s := by
  induction s with
  | nil =>
    intro cur
    unfold splitWsAux
    cases cur with
    | nil => rfl
    | cons c cur => simp
  | cons c s ih =>
    intro cur
    unfold splitWsAux
    rw [h c (by simp), if_neg (by simp), ih (fun x hx => h x (by simp [hx]))]
    simp

theorem label_lower {s : Str} (h : ∀ c ∈ s, isWs c = false) : directiveLabel s = toLower s := by
  unfold directiveLabel splitWs
  rw [splitWs_wordAux]
  · simp only [List.reverse_nil, List.nil_append]
    unfold toLower
    rw [List.map_map]
    exact List.map_congr_left fun c _ => lower_lower c
  · intro c hc
    obtain ⟨x, hx, rfl⟩ := List.mem_map.mp hc
    exact lower_ws (h x hx)

theorem nameTail_ws : ∀ {t : Str}, NameTail t → ∀ c ∈ t, isWs c = false
  | [], _, c, hc => by cases hc
  | [a], h, c, hc => by
    obtain rfl := List.mem_singleton.mp hc
    exact alnum_not_ws h
  | a :: b :: t, h, c, hc => by
    rcases List.mem_cons.mp hc with rfl | hc
    · rcases h.1 with h | ⟨h, _⟩
      · exact alnum_not_ws h
      · revert h; generalize c = a; revert a; decide
    · exact nameTail_ws h.2 c hc

theorem dirName_label {n : Str} (h : DirName n) : directiveLabel n = toLower n := by
  obtain ⟨a, b, t, rfl, ha, hb, ht⟩ := h
  refine label_lower fun c hc => ?_
  rcases List.mem_cons.mp hc with rfl | hc
  · exact alnum_not_ws (alnum_of_alpha ha)
  · rcases List.mem_cons.mp hc with rfl | hc
    · exact alnum_not_ws hb
    · exact nameTail_ws ht c hc

/-! ## Reading indented blocks -/

/-- Nothing, or a line with something visible and a smaller indentation. -/
def Low (k : Nat) (ls : List Str) : Prop := ∀ l, ls.head? = some l → isBlank l = false ∧ indentOf l < k

theorem Low.mono {j k : Nat} {ls : List Str} (h : Low j ls) (hjk : j ≤ k) : Low k ls :=
  fun l hl => ⟨(h l hl).1, by have := (h l hl).2; omega⟩

theorem loop_low {k : Nat} {rest : List Str} (hr : Low k rest) : ∀ (ls : List Str) (prev : Option Str),
    (∀ l ∈ ls, isBlank l = true ∨ (0 < indentOf l ∧ k ≤ indentOf l)) →
    (readIndentedLoop false (some k) false (ls ++ rest) prev (some k)).lines = ls ∧
    (readIndentedLoop false (some k) false (ls ++ rest) prev (some k)).minimal = some k
  | [], prev, _ => by
    cases rest with
    | nil => exact ⟨rfl, rfl⟩
    | cons l rest =>
      obtain ⟨h1, h2⟩ := hr l rfl
      simp [readIndentedLoop, h1, breakWhenNotAligned, h2]
  | l :: ls, prev, h => by
    obtain ⟨h1, h2⟩ := loop_low hr ls (some l) (fun x hx => h x (by simp [hx]))
    have hcond : (!isBlank l && (decide (indentOf l < 1) || breakWhenNotAligned (some k) false (indentOf l))) = false := by
      rcases h l (by simp) with h | ⟨h, h'⟩
      · simp [h]
      · have e1 : ¬ indentOf l < 1 := by omega
        have e2 : ¬ indentOf l < k := by omega
        simp [breakWhenNotAligned, e1, e2]
    rw [List.cons_append, readIndentedLoop]
    simp only [hcond, Bool.false_eq_true, if_false, Bool.and_false, updateMinimal, h1, h2, and_self]

/-- The block is everything up to the first visible line with a smaller indentation. -/
theorem indented_reads {E : Env} {s : PS} {k : Nat} {l : Str} {ls rest : List Str} {first : Option Nat} (hk : 0 < k)
    (h : E.src.drop s.cursor.relativeOffset = l :: ls ++ rest) (hls : ∀ l ∈ ls, isBlank l = true ∨ k ≤ indentOf l)
    (hr : Low k rest) (hf : first = none ∨ first = some k) :
    P.indentedBlock E false (some k) first false s = .ok ((l :: ls).map (·.drop k), ls.length + 1) s := by
  have hne : E.src.isEmpty = false := by
    cases hs : E.src with
    | nil => rw [hs] at h; simp at h
    | cons => rfl
  have hlen : ¬ E.src.length < s.cursor.relativeOffset := by
    intro hlt
    rw [List.drop_eq_nil_of_le (by omega)] at h
    simp at h
  obtain ⟨h1, h2⟩ := loop_low hr ls (some l) (fun x hx => by
    rcases hls x hx with h | h
    · exact .inl h
    · exact .inr ⟨by omega, h⟩)
  have hor : first.or (some k) = some k := by rcases hf with rfl | rfl <;> rfl
  rw [List.cons_append] at h
  simp only [P.indentedBlock, readIndentedBlock, hne, Bool.false_eq_true, if_false, hlen, hor, h, h1, h2, if_true, stripBlock,
    List.map_cons, List.length_cons, List.length_map]

/-! ## Lines of the content -/

theorem content_indent (k : Nat) (l : Str) :
    isBlank (contentLine k l) = true ∨ k ≤ indentOf (contentLine k l) := by
  unfold contentLine
  split
  · exact .inl rfl
  · rename_i hl
    right
    unfold indentLine indentOf
    rw [List.takeWhile_append_of_pos (by intro c hc; rw [List.eq_of_mem_replicate hc]; decide)]
    simp

theorem content_drop (k : Nat) (l : Str) : (contentLine k l).drop k = l := by
  unfold contentLine
  split
  · rename_i h; rw [h]; simp
  · exact drop_indentLine k l

theorem contents_drop (k : Nat) (ls : List Str) : (ls.map (contentLine k)).map (·.drop k) = ls := by
  rw [List.map_map]
  conv => rhs; rw [← List.map_id ls]
  exact List.map_congr_left fun l _ => content_drop k l

/-! ## New nodes -/

/-- Nodes become children of the focused node. -/
theorem Spine.add {s : PS} {f : Frame} {fs : List Frame} (h : Spine s.doc.tree (f :: fs)) {nodes : List NodeType}
    (ha : ∀ n ∈ nodes, childIsAllowed f.data.kind n.kind = .ok true ∧ Simple n.kind) (hq : s.doc.hyperref.accumulated = []) :
    ∃ d', P.pushAll nodes s = .ok () { s with doc := d' } ∧ Spine d'.tree (f.add (nodes.map (.node · [])) :: fs) ∧
      d'.notes = s.doc.notes := by
  generalize hz : s.doc.tree = z at h
  cases h with
  | mk hl hab =>
    rename_i n cs path
    obtain ⟨d', new, h1, h2, h3, h4⟩ := P.pushAll_ok (s := s) (nodes := nodes) (cs := cs) (by rw [hz]; exact hl.2.1) hq
      (fun x hx => ⟨by rw [hz]; show childIsAllowed n.data.kind _ = _; rw [hl.1]; exact (ha x hx).1, .inl (ha x hx).2⟩)
    rw [show nodes.map inlineShape = nodes.map (.node · []) from List.map_congr_left fun x hx => inlineShape_simple (ha x hx).2] at h3
    refine ⟨d', h1, ?_, h2⟩
    rw [h4, hz]
    exact .mk (hl.add h3) hab

/-- Nodes become children of the focused node, and the first one gets the labels of the targets before it. -/
theorem Spine.add_targets {s : PS} {f : Frame} {fs : List Frame} (h : Spine s.doc.tree (f :: fs)) {data : NodeType} {nodes : List NodeType}
    (ha : ∀ n ∈ data :: nodes, childIsAllowed f.data.kind n.kind = .ok true ∧ Simple n.kind)
    (h1 : data.kind ≠ .EmptyLine) (h2 : data.kind ≠ .WhiteSpace) :
    ∃ d', P.pushAll (data :: nodes) s = .ok () { s with doc := d' } ∧
      Spine d'.tree (f.add (labelFirst s.doc.hyperref.accumulated ((data :: nodes).map (.node · []))) :: fs) ∧
      d'.notes = (s.doc.notes.1, []) := by
  obtain ⟨ha1, hs1⟩ := ha data (by simp)
  have key : ∃ d1, P.push data s = .ok () { s with doc := d1 } ∧
      Spine d1.tree (f.add [.labelled data s.doc.hyperref.accumulated []] :: fs) ∧ d1.notes = (s.doc.notes.1, []) := by
    generalize hz : s.doc.tree = z at h
    cases h with
    | mk hl hab =>
      rename_i n cs path
      obtain ⟨cl, d', k1, k2, k3, k4⟩ := Rustla.push_ok (d := s.doc) (data := data) (cs := cs) (by rw [hz]; exact hl.2.1)
        (by rw [hz]; show childIsAllowed n.data.kind _ = _; rw [hl.1]; exact ha1)
      obtain ⟨q1, q3⟩ := hyperref_takes s.doc data hs1 h1 h2
      rw [hyperref_data _ _ hs1.1 hs1.2.1] at k4
      rw [q1] at k3
      refine ⟨d', by simp [P.push, P.orFail, k1], ?_, k3⟩
      rw [k4, hz]
      exact .mk (hl.add (by rw [shapesOf, shapesOf, shapeOf_new, q3])) hab
  obtain ⟨d1, k1, k2, k3⟩ := key
  obtain ⟨d2, m1, m2, m3⟩ := Spine.add (s := { s with doc := d1 }) k2 (nodes := nodes) (fun n hn => ha n (by simp [hn]))
    (congrArg Prod.snd k3)
  refine ⟨d2, by simp only [P.pushAll, bind, P.bind, k1, m1], ?_, m3.trans k3⟩
  rw [Frame.add_add] at m2
  simpa [labelFirst] using m2

theorem pushAll_one (data : NodeType) (s : PS) : P.pushAll [data] s = P.push data s := by
  simp only [P.pushAll, bind, P.bind, pure, P.pure]
  cases P.push data s <;> rfl

/-- The transition adds the nodes to the focused node, the first one with the labels of the targets before it, and moves on by the given number of lines. -/
def Acts (ps : PS) (r : Out Moves) (f : Frame) (fs : List Frame) (nodes : List NodeType) (k : Nat) : Prop :=
  ∃ adv ps', r = .ok (.neither, adv) ps' ∧ applyAdvance ps'.cursor adv = ps.cursor.incrementBy k ∧
    Spine ps'.doc.tree (f.add (labelFirst ps.doc.hyperref.accumulated (nodes.map (.node · []))) :: fs) ∧ ps'.doc.notes = (ps.doc.notes.1, [])

/-- What is known when a block is reached: the focused node has the right indentation and takes its nodes. -/
structure Meets (E : Env) (ps : PS) (f : Frame) (fs : List Frame) (i : Nat) (lines : List Str) : Prop where
  here : E.src.drop ps.cursor.relativeOffset = lines
  spine : Spine ps.doc.tree (f :: fs)
  indent : f.data.bodyIndent = some (i + E.baseIndent)

/-- What a directive without content needs. -/
structure Enters (E : Env) (ps : PS) (f : Frame) (fs : List Frame) (i : Nat) (d : Dir) (rest : List Str) : Prop
    extends Meets E ps f fs i (d.lines i ++ rest) where
  ok : d.Ok
  stops : Stops rest

theorem dispatch_image (E : Env) (b k : Nat) (e : Bool) : dispatchDirective E (str! "image") b k e = parseImage E b k e := rfl
theorem dispatch_math (E : Env) (b k : Nat) (e : Bool) : dispatchDirective E (str! "math") b k e = parseMathBlock E b k e := rfl
theorem dispatch_input (E : Env) (b k : Nat) (e : Bool) : dispatchDirective E (str! "ae-input") b k e = parseActiveInput E b k e := rfl
theorem dispatch_output (E : Env) (b k : Nat) (e : Bool) :
    dispatchDirective E (str! "ae-output") b k e = parseActiveOutput E b k e := rfl
theorem dispatch_code (E : Env) (b k : Nat) (e : Bool) :
    dispatchDirective E (str! "code-block") b k e = parseSphinxCodeBlock E b k e ∧
    dispatchDirective E (str! "sourcecode") b k e = parseSphinxCodeBlock E b k e := ⟨rfl, rfl⟩

theorem dispatch_listing (E : Env) (b k : Nat) (e : Bool) : dispatchDirective E (str! "code") b k e = parseCode E b k e := rfl

theorem Spec.Dir.args_some {d : Dir} (h : d.arg ≠ []) : d.args = some [d.arg] := by unfold Dir.args; rw [if_neg h]
theorem Spec.Dir.args_none {d : Dir} (h : d.arg = []) : d.args = none := by unfold Dir.args; rw [if_pos h]

/-- The body indentation of a directive. -/
def bodyOf (E : Env) (ps : PS) (i : Nat) (d : Dir) : Nat :=
  (indentOnSubsequentLines E.src ps.cursor.relativeOffset).getD (spaces i ++ d.head).length

theorem Enters.body {E : Env} {ps : PS} {f : Frame} {fs : List Frame} {i : Nat} {d : Dir} {rest : List Str}
    (H : Enters E ps f fs i d rest) (ho : d.opts ≠ []) : bodyOf E ps i d = i + 3 := by
  unfold bodyOf
  rw [subsequent_options H.here ho]; rfl

/-- The state behind the options of a directive. -/
def behindOptions (ps : PS) (d : Dir) (rest : List Str) : PS :=
  { ps with cursor := ps.cursor.incrementBy (1 + d.optionCount rest) }

/-- A directive is handed to its parser, which reads its arguments and options. -/
theorem Enters.dispatch {E : Env} {ps : PS} {f : Frame} {fs : List Frame} {i : Nat} {d : Dir} {rest : List Str}
    (H : Enters E ps f fs i d rest) :
    bodyDirective E (directiveMatch d i) ps =
      dispatchDirective E d.key (bodyOf E ps i d) (spaces i ++ d.head).length (isBlank d.arg) ps := by
  rw [directive_enters rfl H.here (by show ps.doc.tree.node.data.bodyIndent = _; rw [H.spine.data]; exact H.indent)
    (b := bodyOf E ps i d) rfl, dirName_label H.ok.name]
  rfl

theorem Enters.scan {E : Env} {ps : PS} {f : Frame} {fs : List Frame} {i : Nat} {d : Dir} {rest : List Str}
    (H : Enters E ps f fs i d rest) :
    P.arguments E (bodyOf E ps i d) (spaces i ++ d.head).length (isBlank d.arg) ps =
      .ok d.args { ps with cursor := ps.cursor.incrementBy 1 } ∧
    P.options E (bodyOf E ps i d) { ps with cursor := ps.cursor.incrementBy 1 } = .ok d.options (behindOptions ps d rest) := by
  refine ⟨scan_arguments H.ok H.here H.stops, ?_⟩
  have h1 : E.src.drop (ps.cursor.incrementBy 1).relativeOffset =
      d.opts.map (fun o => indentLine (i + 3) (optionLine o)) ++ rest := by
    rw [drop_incr H.here 1]; rfl
  rw [scan_options (s := { ps with cursor := ps.cursor.incrementBy 1 }) H.ok h1 H.stops H.body]
  unfold behindOptions
  rw [LineCursor.incrementBy_add]

/-- A node is added behind the options. -/
theorem Enters.push {E : Env} {ps : PS} {f : Frame} {fs : List Frame} {i : Nat} {d : Dir} {rest : List Str}
    (H : Enters E ps f fs i d rest) {data : NodeType} (ha : childIsAllowed f.data.kind data.kind = .ok true) (hs : Simple data.kind)
    (hw : data.kind ≠ .EmptyLine ∧ data.kind ≠ .WhiteSpace := by simp [NodeType.kind]) :
    ∃ d', P.push data (behindOptions ps d rest) = .ok () { behindOptions ps d rest with doc := d' } ∧
      Spine d'.tree (f.add (labelFirst ps.doc.hyperref.accumulated [.node data []]) :: fs) ∧ d'.notes = (ps.doc.notes.1, []) := by
  obtain ⟨d', h1, h2, h3⟩ := Spine.add_targets (s := behindOptions ps d rest) (data := data) (nodes := []) H.spine
    (by intro n hn; obtain rfl := List.mem_singleton.mp hn; exact ⟨ha, hs⟩) hw.1 hw.2
  exact ⟨d', by rw [← pushAll_one]; exact h1, h2, h3⟩

theorem simple_image : Simple .Image := ⟨by decide, by decide, by decide, by decide, by decide⟩
theorem simple_math : Simple .MathBlock := ⟨by decide, by decide, by decide, by decide, by decide⟩
theorem simple_input : Simple .AplusActiveElementInput := ⟨by decide, by decide, by decide, by decide, by decide⟩
theorem simple_output : Simple .AplusActiveElementOutput := ⟨by decide, by decide, by decide, by decide, by decide⟩
theorem simple_codeBlock : Simple .SphinxCodeBlock := ⟨by decide, by decide, by decide, by decide, by decide⟩
theorem simple_listing : Simple .Code := ⟨by decide, by decide, by decide, by decide, by decide⟩
theorem simple_comment : Simple .Comment := ⟨by decide, by decide, by decide, by decide, by decide⟩

theorem image_acts {E : Env} {ps : PS} {f : Frame} {fs : List Frame} {i : Nat} {d : Dir} {rest : List Str}
    (H : Enters E ps f fs i d rest) (hk : d.key = str! "image") (harg : d.arg ≠ [])
    (ha : childIsAllowed f.data.kind .Image = .ok true) :
    Acts ps (bodyDirective E (directiveMatch d i) ps) f fs (Leaf.image d).nodes (1 + d.optionCount rest) := by
  obtain ⟨d', h1, h2, h3⟩ := H.push (data := .Image d.arg (d.get (str! "alt")) (d.length (str! "height")) (d.length (str! "width"))
      ((d.get (str! "scale")).bind strToPercentage) ((d.get (str! "align")).bind strToHtmlAlignment) (d.get (str! "target"))
      (d.get (str! "name")) (d.get (str! "class")) false) ha simple_image
  refine ⟨none, { behindOptions ps d rest with doc := d' }, ?_, rfl, h2, h3⟩
  rw [H.dispatch, hk, dispatch_image]
  simp only [parseImage, bind, P.bind, H.scan.1, H.scan.2, Dir.args_some harg, P.required, pure, P.pure, Dir.optionOf,
    List.flatten_cons, List.flatten_nil, List.append_nil]
  unfold Dir.length at h1
  rw [h1]

theorem formula_acts {E : Env} {ps : PS} {f : Frame} {fs : List Frame} {i : Nat} {d : Dir} {rest : List Str}
    (H : Enters E ps f fs i d rest) (hk : d.key = str! "math") (harg : d.arg ≠ [])
    (ha : childIsAllowed f.data.kind .MathBlock = .ok true) :
    Acts ps (bodyDirective E (directiveMatch d i) ps) f fs (Leaf.formula d).nodes (1 + d.optionCount rest) := by
  obtain ⟨d', h1, h2, h3⟩ := H.push (data := .MathBlock d.arg (d.get (str! "name")) (d.get (str! "class"))) ha
    simple_math
  refine ⟨none, { behindOptions ps d rest with doc := d' }, ?_, rfl, h2, h3⟩
  rw [H.dispatch, hk, dispatch_math]
  simp only [parseMathBlock, bind, P.bind, H.scan.1, H.scan.2, Dir.args_some harg, pure, P.pure, Dir.optionOf, joinWith, h1]

theorem clear_sides (t : Str) : clearOf t = fromTable sides t := by
  unfold clearOf fromTable sides
  by_cases h1 : t = str! "both"
  · subst h1; rfl
  · by_cases h2 : t = str! "left"
    · subst h2; rfl
    · by_cases h3 : t = str! "right"
      · subst h3; rfl
      · have e1 : ¬ str! "both" = t := fun e => h1 e.symm
        have e2 : ¬ str! "left" = t := fun e => h2 e.symm
        have e3 : ¬ str! "right" = t := fun e => h3 e.symm
        simp only [h1, h2, h3, if_false, List.find?_cons, e1, e2, e3, decide_false, List.find?_nil, Option.map_none]

theorem inputType_kind {t : Str} (h : InputType t) : inputType (some t) = some (some (inputKind t)) := by
  rcases h with rfl | rfl | ⟨x, rfl, hx⟩
  · rfl
  · rfl
  · have e1 : ¬ str! "dropdown:" ++ x = str! "file" := by intro e; simp at e
    have e2 : ¬ str! "dropdown:" ++ x = str! "clickable" := by intro e; simp at e
    have e3 : (str! "dropdown:").isPrefixOf (str! "dropdown:" ++ x) = true := by
      rw [List.isPrefixOf_iff_prefix]; exact List.prefix_append _ _
    have e4 : afterLastColon (str! "dropdown:" ++ x) = x := by
      unfold afterLastColon
      have e : str! "dropdown:" ++ x = str! "dropdown" ++ ':' :: x := by simp
      rw [e, List.reverse_append, List.reverse_cons, List.append_assoc, List.takeWhile_append_of_pos]
      · simp
      · intro c hc
        have : c ∈ x := by simpa using hc
        simp only [bne_iff_ne, ne_eq]
        rintro rfl; exact hx this
    have e5 : (str! "dropdown:" ++ x).drop 9 = x := by simp
    simp only [inputType, inputKind, e1, e2, e3, if_false, if_true, e4, e5]

theorem inputFile_eq (t f : Option Str) : inputFile t f = if t = some (str! "clickable") then f else none := by
  cases t with
  | none => simp [inputFile]
  | some t =>
    cases f with
    | none => simp [inputFile]
    | some f =>
      unfold inputFile
      by_cases h : t = str! "clickable" <;> simp [h]

theorem status_table (t : Str) (h : trim t = t) : exerciseStatus (some t) = (fromTable statuses t).getD .Unlisted := by
  unfold exerciseStatus fromTable statuses
  simp only [h]
  by_cases h1 : t = str! "ready"
  · subst h1; rfl
  by_cases h2 : t = str! "unlisted"
  · subst h2; rfl
  by_cases h3 : t = str! "hidden"
  · subst h3; rfl
  by_cases h4 : t = str! "enrollment"
  · subst h4; rfl
  by_cases h5 : t = str! "enrollment_ext"
  · subst h5; rfl
  by_cases h6 : t = str! "maintenance"
  · subst h6; rfl
  have e1 : ¬ str! "ready" = t := fun e => h1 e.symm
  have e2 : ¬ str! "unlisted" = t := fun e => h2 e.symm
  have e3 : ¬ str! "hidden" = t := fun e => h3 e.symm
  have e4 : ¬ str! "enrollment" = t := fun e => h4 e.symm
  have e5 : ¬ str! "enrollment_ext" = t := fun e => h5 e.symm
  have e6 : ¬ str! "maintenance" = t := fun e => h6 e.symm
  simp only [h1, h2, h3, h4, h5, h6, if_false, List.find?_cons, e1, e2, e3, e4, e5, e6, decide_false, List.find?_nil,
    Option.map_none, Option.getD_none]

theorem Spec.Dir.Ok.trim_get {d : Dir} (h : d.Ok) {key t : Str} (hg : d.get key = some t) : Rustla.trim t = t := by
  unfold Dir.get at hg
  cases hf : d.opts.reverse.find? (fun o => o.1 = key) with
  | none => rw [hf] at hg; cases hg
  | some o =>
    rw [hf] at hg
    have hm := List.mem_of_find?_eq_some hf
    obtain rfl : o.2 = t := by simpa using hg
    rcases (h.opts o (List.mem_reverse.mp hm)).value with e | e
    · rw [e]; rfl
    · exact e.trim

theorem input_acts {E : Env} {ps : PS} {f : Frame} {fs : List Frame} {i : Nat} {d : Dir} {rest : List Str}
    (H : Enters E ps f fs i d rest) (hk : d.key = str! "ae-input") (harg : d.arg ≠ [])
    (hclear : ∀ t, d.get (str! "clear") = some t → (fromTable sides t).isSome)
    (htype : ∀ t, d.get (str! "type") = some t → InputType t)
    (ha : childIsAllowed f.data.kind .AplusActiveElementInput = .ok true) :
    Acts ps (bodyDirective E (directiveMatch d i) ps) f fs (Leaf.input d).nodes (1 + d.optionCount rest) := by
  obtain ⟨d', h1, h2, h3⟩ := H.push (data := .AplusActiveElementInput d.arg (d.get (str! "title")) (d.get (str! "default"))
      (d.get (str! "class")) (d.length (str! "width")) (d.length (str! "height")) ((d.get (str! "clear")).bind (fromTable sides))
      ((d.get (str! "type")).map inputKind)
      (if d.get (str! "type") = some (str! "clickable") then d.get (str! "file") else none)) ha
    simple_input
  refine ⟨none, { behindOptions ps d rest with doc := d' }, ?_, rfl, h2, h3⟩
  have hc : inputClear (d.get (str! "clear")) = some ((d.get (str! "clear")).bind (fromTable sides)) := by
    cases hg : d.get (str! "clear") with
    | none => rfl
    | some t =>
      have := hclear t hg
      unfold inputClear
      simp only [clear_sides, Option.bind_some]
      cases hx : fromTable sides t with
      | none => rw [hx] at this; cases this
      | some v => rfl
  have ht : inputType (d.get (str! "type")) = some ((d.get (str! "type")).map inputKind) := by
    cases hg : d.get (str! "type") with
    | none => rfl
    | some t => exact inputType_kind (htype t hg)
  rw [H.dispatch, hk, dispatch_input]
  simp only [parseActiveInput, bind, P.bind, H.scan.1, H.scan.2, Dir.args_some harg, P.required, pure, P.pure, Dir.optionOf, joinWith,
    hc, ht, inputFile_eq]
  unfold Dir.length at h1
  rw [h1]

theorem output_acts {E : Env} {ps : PS} {f : Frame} {fs : List Frame} {i : Nat} {d : Dir} {rest : List Str}
    (H : Enters E ps f fs i d rest) (hk : d.key = str! "ae-output") (harg : d.arg ≠ [])
    (hconfig : d.has (str! "config") = true) (hinputs : d.has (str! "inputs") = true)
    (ha : childIsAllowed f.data.kind .AplusActiveElementOutput = .ok true) :
    Acts ps (bodyDirective E (directiveMatch d i) ps) f fs (Leaf.output d).nodes (1 + d.optionCount rest) := by
  obtain ⟨config, hc⟩ := Option.isSome_iff_exists.mp hconfig
  obtain ⟨inputs, hi⟩ := Option.isSome_iff_exists.mp hinputs
  obtain ⟨d', h1, h2, h3⟩ := H.push (data := .AplusActiveElementOutput d.arg ((d.get (str! "config")).getD [])
      ((d.get (str! "inputs")).getD []) (d.get (str! "title")) (d.get (str! "class")) (d.length (str! "width"))
      (d.length (str! "height")) ((d.get (str! "clear")).bind (fromTable sides))
      (if d.get (str! "type") = some (str! "image") then .Image else .Text) (d.number 32 (str! "submissions"))
      (d.has (str! "scale-size")) (((d.get (str! "status")).bind (fromTable statuses)).getD .Unlisted)) ha
    simple_output
  refine ⟨none, { behindOptions ps d rest with doc := d' }, ?_, rfl, h2, h3⟩
  have hs : exerciseStatus (d.get (str! "status")) = ((d.get (str! "status")).bind (fromTable statuses)).getD .Unlisted := by
    cases hg : d.get (str! "status") with
    | none => rfl
    | some t => exact status_table t (H.ok.trim_get hg)
  have hcl : (d.get (str! "clear")).bind clearOf = (d.get (str! "clear")).bind (fromTable sides) := by
    cases d.get (str! "clear") with
    | none => rfl
    | some t => exact clear_sides t
  rw [H.dispatch, hk, dispatch_output]
  unfold Dir.length Dir.number Dir.has at h1
  rw [hc, hi] at h1
  simp only [Option.getD_some] at h1
  simp only [parseActiveOutput, bind, P.bind, H.scan.1, H.scan.2, Dir.args_some harg, P.required, pure, P.pure, Dir.optionOf, joinWith,
    hc, hi, hs, hcl, outputType, h1]

/-! ## Text of several lines -/

theorem unlines_join : ∀ g : List Str, unlines g = joinWith ['\n'] g
  | [] => rfl
  | [_] => rfl
  | l :: m :: g => by rw [unlines, joinWith, unlines_join (m :: g)]; simp; simp

theorem trim_ends {t w : Str} {a b : Char} (ha : t.head? = some a) (hwa : isWs a = false) (hb : t.getLast? = some b)
    (hwb : isWs b = false) (hw : ∀ c ∈ w, isWs c = true) : trim (t ++ w) = t := by
  have h1 : trimStart (t ++ w) = t ++ w := by
    cases t with
    | nil => cases ha
    | cons c t => simp at ha; subst ha; simp [trimStart, hwa]
  unfold trim
  rw [h1]
  unfold trimEnd
  rw [List.reverse_append, List.dropWhile_append_of_pos (by intro c hc; exact hw c (by simpa using hc))]
  have : t.reverse.head? = some b := by rw [List.head?_reverse]; exact hb
  cases hr : t.reverse with
  | nil => rw [hr] at this; cases this
  | cons x r =>
    rw [hr] at this
    simp at this; subst this
    rw [List.dropWhile_cons, hwb]
    simp only [Bool.false_eq_true, if_false]
    rw [← hr, List.reverse_reverse]

theorem join_head {sep l : Str} {c : Char} (h : l.head? = some c) : ∀ g : List Str, (joinWith sep (l :: g)).head? = some c
  | [] => h
  | m :: g => by
    cases l with
    | nil => cases h
    | cons a l => rw [joinWith]; simpa using h

theorem join_last {sep : Str} {c : Char} : ∀ {g : List Str} {l : Str}, g.getLast? = some l → l.getLast? = some c →
    (joinWith sep g).getLast? = some c
  | [], l, h, _ => by cases h
  | [x], l, h, hc => by simp at h; subst h; exact hc
  | x :: y :: g, l, h, hc => by
    have := join_last (sep := sep) (g := y :: g) (by simpa [List.getLast?_cons_cons] using h) hc
    rw [joinWith, List.getLast?_append, this]; rfl

theorem join_blanks {bs : List Str} (hb : ∀ l ∈ bs, isBlank l = true) : ∀ {g : List Str}, g ≠ [] →
    ∃ w, joinWith ['\n'] (g ++ bs) = joinWith ['\n'] g ++ w ∧ ∀ c ∈ w, isWs c = true
  | [], h => absurd rfl h
  | [l], _ => by
    induction bs generalizing l with
    | nil => exact ⟨[], by simp, by simp⟩
    | cons b bs ih =>
      obtain ⟨w, h1, h2⟩ := ih (fun x hx => hb x (by simp [hx])) b (by simp)
      refine ⟨'\n' :: (b ++ w), ?_, ?_⟩
      · have e : joinWith ['\n'] ([l] ++ b :: bs) = l ++ ['\n'] ++ joinWith ['\n'] ([b] ++ bs) := rfl
        rw [e, h1]; simp [joinWith]
      · intro c hc
        rcases List.mem_cons.mp hc with rfl | hc
        · decide
        · rcases List.mem_append.mp hc with hc | hc
          · exact (isBlank_iff b).mp (hb b (by simp)) c hc
          · exact h2 c hc
  | l :: m :: g, _ => by
    obtain ⟨w, h1, h2⟩ := join_blanks hb (g := m :: g) (by simp)
    refine ⟨w, ?_, h2⟩
    have e : joinWith ['\n'] (l :: m :: g ++ bs) = l ++ ['\n'] ++ joinWith ['\n'] (m :: g ++ bs) := rfl
    rw [e, h1]; simp [joinWith]

/-- The text of some lines, the first of which starts and the last of which ends with something visible. -/
theorem trim_lines {g bs : List Str} {l x : Str} {a b : Char} (h1 : g.head? = some l) (h2 : l.head? = some a) (h3 : isWs a = false)
    (h4 : g.getLast? = some x) (h5 : x.getLast? = some b) (h6 : isWs b = false) (hb : ∀ l ∈ bs, isBlank l = true) :
    trim (joinWith ['\n'] (g ++ bs)) = unlines g := by
  cases g with
  | nil => cases h1
  | cons y g =>
    simp at h1; subst h1
    obtain ⟨w, e, hw⟩ := join_blanks hb (g := y :: g) (by simp)
    rw [e, unlines_join]
    exact trim_ends (join_head h2 g) h3 (join_last h4 h5) h6 hw

theorem blank_drop {l : Str} (h : isBlank l = true) (k : Nat) : isBlank (l.drop k) = true := by
  rw [isBlank_iff] at h ⊢
  exact fun c hc => h c (List.mem_of_mem_drop hc)

/-! ## Comments -/

/-- The match of a comment. -/
def commentMatch (i : Nat) (l : Str) : Match := ⟨spaces i ++ str! ".. ", l, [(.g1, spaces i)]⟩

theorem comment_captures {l : Str} (h : Inset l) (i : Nat) :
    reComment.captures (indentLine i (str! ".. " ++ l)) = some (commentMatch i l) := by
  obtain ⟨c, s, rfl, hc⟩ := h.cons
  have hcs : c ≠ ' ' := by rintro rfl; exact absurd hc (by decide)
  have e : indentLine i (str! ".. " ++ c :: s) = (spaces i ++ str! ".. ") ++ c :: s := by unfold indentLine; simp
  have key : ∀ q, q ∈ reComment.run (indentLine i (str! ".. " ++ c :: s)) [] ↔ q = (c :: s, [(.g1, spaces i)]) := by
    intro q
    have e' : indentLine i (str! ".. " ++ c :: s) = spaces i ++ '.' :: ('.' :: ' ' :: c :: s) := rfl
    unfold reComment
    rw [e', run_seq_spaces (dots_space _) (by decide), mem_seq]
    constructor
    · rintro ⟨r, hr, hq⟩
      obtain ⟨h1, h2⟩ := mem_lit.mp hr
      have h3 : r.1 = ' ' :: c :: s := by simpa using h1.symm
      rcases mem_alt.mp hq with hq | hq
      · obtain ⟨h4, n, h5⟩ := mem_plus_chr.mp hq
        rw [h3] at h5
        cases n with
        | zero => simp at h5; exact Prod.ext h5.symm (h4.trans h2)
        | succ n => simp [List.replicate_succ] at h5; exact absurd h5.1 hcs
      · have := (mem_eos.mp hq).1
        rw [h3] at this; cases this
    · rintro rfl
      exact ⟨(' ' :: c :: s, _), mem_lit.mpr ⟨rfl, rfl⟩, mem_alt.mpr (.inl (mem_plus_chr.mpr ⟨rfl, 0, rfl⟩))⟩
  rw [e] at key ⊢
  exact captures_of_unique ((key _).mpr rfl) fun q hq => (key q).mp hq

/-- A directive has two colons behind its name. -/
theorem no_directive {s : Str} (h : ¬ str! "::" <:+: s) : reDirective.captures s = none := by
  cases hc : reDirective.captures s with
  | none => rfl
  | some m =>
    exfalso
    have hne : reDirective.run s [] ≠ [] := by
      intro e
      rw [(Re.captures_none_iff _ _).mpr e] at hc; cases hc
    obtain ⟨q, hq⟩ := List.exists_mem_of_ne_nil _ hne
    unfold reDirective at hq
    obtain ⟨r1, h1, hq⟩ := mem_seq.mp hq
    obtain ⟨r2, h2, hq⟩ := mem_seq.mp hq
    obtain ⟨r3, h3, hq⟩ := mem_seq.mp hq
    obtain ⟨r4, h4, hq⟩ := mem_seq.mp hq
    obtain ⟨r5, h5, hq⟩ := mem_seq.mp hq
    obtain ⟨r6, h6, hq⟩ := mem_seq.mp hq
    obtain ⟨e6, _⟩ := mem_lit.mp h6
    have hs : ∀ {r : Re} {s : Str} {cs : Caps} {q : Str × Caps}, q ∈ r.run s cs → q.1 <:+ s := by
      intro r s cs q h
      obtain ⟨m, hm⟩ := r.run_suffix s cs q h
      exact ⟨m, hm.symm⟩
    have : r5.1 <:+ s := (hs h5).trans ((hs h4).trans ((hs h3).trans ((hs h2).trans (hs h1))))
    exact h (List.IsInfix.trans ⟨[], r6.1, by rw [e6]; rfl⟩ this.isInfix)

theorem comment_transition (E : Env) {l : Str} (h : Inset l) (h1 : l.head? ≠ some '[') (h2 : l.head? ≠ some '_')
    (h3 : ¬ str! "::" <:+: l) (i : Nat) :
    firstTransition (indentLine i (str! ".. " ++ l)) (bodyTable E) = some (commentMatch i l, bodyComment E) ∧
    reBullet.captures (indentLine i (str! ".. " ++ l)) = none := by
  obtain ⟨c, s, rfl, hc⟩ := h.cons
  have hcs : c ≠ ' ' := by rintro rfl; exact absurd hc (by decide)
  have e : indentLine i (str! ".. " ++ c :: s) = spaces i ++ '.' :: '.' :: ' ' :: c :: s := rfl
  obtain ⟨k1, k2⟩ := dots_transition E i (' ' :: c :: s) (by
    intro n t ht
    cases n with
    | zero => simp at ht; subst ht; exact ⟨h1, h2⟩
    | succ n => simp [List.replicate_succ] at ht; exact absurd ht.1 hcs)
  refine ⟨?_, by rw [e]; exact k2⟩
  rw [← e] at k1
  have hno : ¬ str! "::" <:+: indentLine i (str! ".. " ++ c :: s) := by
    intro hi
    refine h3 ?_
    have aux : ∀ x : Str, ':' ∉ x → str! "::" <:+: x ++ c :: s → str! "::" <:+: c :: s := by
      intro x
      induction x with
      | nil => intro _ h; exact h
      | cons a x ih =>
        intro hx h
        rcases List.infix_cons_iff.mp h with h | h
        · have := List.cons_prefix_cons.mp h
          exact absurd this.1 (by rintro rfl; simp at hx)
        · exact ih (fun hm => hx (by simp [hm])) h
    have e2 : indentLine i (str! ".. " ++ c :: s) = (spaces i ++ str! ".. ") ++ c :: s := by unfold indentLine; simp
    rw [e2] at hi
    refine aux _ ?_ hi
    intro hm
    rcases List.mem_append.mp hm with hm | hm
    · exact absurd (List.eq_of_mem_replicate hm) (by decide)
    · exact absurd hm (by decide)
  rw [k1, firstTransition, no_directive hno]
  simp only [firstTransition, comment_captures h i]

theorem comment_acts {E : Env} {ps : PS} {f : Frame} {fs : List Frame} {i : Nat} {l : Str} {ls gap rest : List Str}
    (H : Meets E ps f fs i ((Leaf.comment l ls).lines i ++ (gap ++ rest))) (hok : (Leaf.comment l ls).Ok)
    (hg : gap ≠ []) (hb : ∀ l ∈ gap, isBlank l = true) (hr : Low (i + 1) rest) (ha : childIsAllowed f.data.kind .Comment = .ok true) :
    Acts ps (bodyComment E (commentMatch i l) ps) f fs (Leaf.comment l ls).nodes ((Leaf.comment l ls).lines i ++ gap).length := by
  obtain ⟨hl, _, _, _, hc, hfirst, _, x, hx, b, hxb, hwb⟩ := hok
  have here := H.here
  have hsrc : E.src.drop ps.cursor.relativeOffset =
      indentLine i (str! ".. " ++ l) :: (ls.map (contentLine (i + 3)) ++ gap) ++ rest := by
    rw [here]; simp [Leaf.lines]
  have hnext : commentIndent E (i + E.baseIndent) (i + 3 + E.baseIndent) ps.cursor.relativeOffset = i + 3 + E.baseIndent := by
    have hget : E.src[ps.cursor.relativeOffset + 1]? = (ls.map (contentLine (i + 3)) ++ gap ++ rest)[0]? := by
      have := congrArg (·[1]?) hsrc
      simpa using this
    unfold commentIndent
    rw [hget]
    cases ls with
    | nil =>
      cases gap with
      | nil => exact absurd rfl hg
      | cons g gap =>
        show (if isBlank g then _ else _) = _
        rw [hb g (by simp)]; rfl
    | cons m ls =>
      show (if isBlank (contentLine (i + 3) m) then _ else _) = _
      cases m with
      | nil => rfl
      | cons c m =>
        have hc := hfirst _ rfl c rfl
        have e : contentLine (i + 3) (c :: m) = spaces (i + 3) ++ c :: m := by unfold contentLine; rw [if_neg (by simp)]; rfl
        rw [e, indented_not_blank hc, indentOf_indented hc]
        have hlt : ¬ (i + 3 + E.baseIndent < i + E.baseIndent + 1) := by omega
        rw [if_neg (by simp), if_neg hlt]
  have hread : P.indentedBlock E false (some (i + 3)) (some (i + 3)) false ps =
      .ok ((l :: ls) ++ gap.map (·.drop (i + 3)), (ls.map (contentLine (i + 3)) ++ gap).length + 1) ps := by
    rw [indented_reads (by omega) hsrc ?_ (hr.mono (by omega)) (.inr rfl)]
    · rw [List.map_cons, List.map_append, contents_drop]
      have : (indentLine i (str! ".. " ++ l)).drop (i + 3) = l := by
        have e : indentLine i (str! ".. " ++ l) = indentLine i (str! ".. ") ++ l := by unfold indentLine; simp
        rw [e, List.drop_append_of_le_length (by simp [indentLine]), List.drop_eq_nil_of_le (by simp [indentLine])]; rfl
      rw [this]; rfl
    · intro y hy
      rcases List.mem_append.mp hy with hy | hy
      · obtain ⟨z, _, rfl⟩ := List.mem_map.mp hy
        exact content_indent _ _
      · exact .inl (hb y hy)
  have htext : trim (joinWith ['\n'] ((l :: ls) ++ gap.map (·.drop (i + 3)))) = unlines (l :: ls) := by
    obtain ⟨⟨c, hc, hw⟩, _⟩ := hl
    refine trim_lines rfl hc hw hx hxb hwb ?_
    intro y hy
    obtain ⟨z, hz, rfl⟩ := List.mem_map.mp hy
    exact blank_drop (hb z hz) _
  have hne : (unlines (l :: ls)).isEmpty = false := by
    obtain ⟨⟨c, hc, hw⟩, _⟩ := hl
    have := join_head (sep := ['\n']) hc ls
    rw [unlines_join]
    cases hj : joinWith ['\n'] (l :: ls) with
    | nil => rw [hj] at this; cases this
    | cons => rfl
  obtain ⟨d', h1, h2, h3⟩ := Spine.add_targets (s := ps) (data := .Comment (some (unlines (l :: ls)))) (nodes := []) H.spine
    (by intro n hn; obtain rfl := List.mem_singleton.mp hn; exact ⟨ha, simple_comment⟩) (by simp [NodeType.kind]) (by simp [NodeType.kind])
  rw [pushAll_one] at h1
  refine ⟨some ((ls.map (contentLine (i + 3)) ++ gap).length + 1), { ps with doc := d' }, ?_, ?_, h2, h3⟩
  · have e1 : (commentMatch i l).whole.length = i + 3 := by simp [commentMatch]
    have e2 : ((commentMatch i l).getD .g1).length = i := by
      show (spaces i).length = i
      simp
    have hp : parentIndentMatches ps.doc.sharedData (i + E.baseIndent) = .ok .justRight := by
      unfold parentIndentMatches
      have : ps.doc.sharedData.bodyIndent = some (i + E.baseIndent) := by
        show ps.doc.tree.node.data.bodyIndent = _; rw [H.spine.data]; exact H.indent
      rw [this]; simp
    unfold bodyComment
    simp only [e1, e2, bind, P.bind, P.offset, hnext, Nat.add_sub_cancel, atIndent, P.doc, P.lift, hp, hread, htext, hne,
      Bool.false_eq_true, if_false, h1, pure, P.pure]
  · simp [applyAdvance, Leaf.lines]

/-! ## Directives with a content -/

/-- The scanner of the options goes over one blank line behind the options. -/
theorem behind_gap_eq {ps : PS} {E : Env} {d : Dir} {i : Nat} {gap r : List Str} (hg : gap ≠ [])
    (h : E.src.drop ps.cursor.relativeOffset = d.lines i ++ (gap ++ r)) :
    ∃ gap', gap' = (if d.opts = [] then gap else gap.tail) ∧
      E.src.drop (behindOptions ps d (gap ++ r)).cursor.relativeOffset = gap' ++ r ∧
      1 + d.optionCount (gap ++ r) + gap'.length = (d.lines i ++ gap).length := by
  cases gap with
  | nil => exact absurd rfl hg
  | cons g gap =>
    unfold behindOptions Dir.optionCount
    by_cases ho : d.opts = []
    · refine ⟨g :: gap, by simp [ho], ?_, by simp [Dir.lines, ho]; omega⟩
      simp only [ho, if_true, Nat.add_zero]
      rw [drop_incr h 1]
      simp [Dir.lines, ho]
    · refine ⟨gap, by simp [ho], ?_, by simp [Dir.lines, ho]; omega⟩
      simp only [ho, if_false, List.cons_append, reduceCtorEq]
      rw [drop_incr h]
      have e : 1 + (d.opts.length + 1) = (d.lines i).length + 1 := by simp [Dir.lines]; omega
      rw [e, ← List.drop_drop, List.drop_left]; rfl

theorem behind_gap_suffix {ps : PS} {E : Env} {d : Dir} {i : Nat} {gap r : List Str} (hg : gap ≠ [])
    (h : E.src.drop ps.cursor.relativeOffset = d.lines i ++ (gap ++ r)) :
    ∃ gap', gap' <:+ gap ∧ E.src.drop (behindOptions ps d (gap ++ r)).cursor.relativeOffset = gap' ++ r ∧
      1 + d.optionCount (gap ++ r) + gap'.length = (d.lines i ++ gap).length := by
  obtain ⟨g, h1, h2⟩ := behind_gap_eq hg h
  refine ⟨g, ?_, h2⟩
  rw [h1]
  split
  · exact List.suffix_refl _
  · exact List.tail_suffix _

theorem behind_gap {ps : PS} {E : Env} {d : Dir} {i : Nat} {gap r : List Str} (hg : gap ≠ [])
    (h : E.src.drop ps.cursor.relativeOffset = d.lines i ++ (gap ++ r)) :
    ∃ gap', (∀ l ∈ gap', l ∈ gap) ∧ E.src.drop (behindOptions ps d (gap ++ r)).cursor.relativeOffset = gap' ++ r ∧
      1 + d.optionCount (gap ++ r) + gap'.length = (d.lines i ++ gap).length := by
  obtain ⟨g, h1, h2, h3⟩ := behind_gap_suffix hg h
  exact ⟨g, fun l hl => h1.subset hl, h2, h3⟩

/-- Reading the content behind the options. -/
theorem content_reads {E : Env} {s : PS} {k : Nat} {gap c after rest : List Str} {first : Option Nat} (hk : 0 < k)
    (h : E.src.drop s.cursor.relativeOffset = gap ++ (c ++ (after ++ rest))) (hg : ∀ l ∈ gap, isBlank l = true) (hc : c ≠ [])
    (hck : ∀ l ∈ c, isBlank l = true ∨ k ≤ indentOf l) (ha : ∀ l ∈ after, isBlank l = true)
    (hr : Low k rest) (hf : first = none ∨ first = some k) :
    P.indentedBlock E false (some k) first false s =
      .ok ((gap.map (·.drop k)) ++ ((c.map (·.drop k)) ++ after.map (·.drop k)), (gap ++ (c ++ after)).length) s := by
  cases hx : gap ++ (c ++ after) with
  | nil => simp at hx; exact absurd hx.2.1 hc
  | cons l ls =>
    have h' : E.src.drop s.cursor.relativeOffset = l :: ls ++ rest := by
      rw [h, ← hx]; simp
    rw [indented_reads hk h' ?_ hr hf]
    · have : ls.length + 1 = (l :: ls).length := rfl
      rw [this, ← hx]; simp
    · intro y hy
      have : y ∈ gap ++ (c ++ after) := by rw [hx]; simp [hy]
      rcases List.mem_append.mp this with hy | hy
      · exact .inl (hg y hy)
      · rcases List.mem_append.mp hy with hy | hy
        · exact hck y hy
        · exact .inl (ha y hy)

theorem dropEmpty {gap ls : List Str} (h : ∀ l ∈ gap, l = []) : (gap ++ ls).dropWhile List.isEmpty = ls.dropWhile List.isEmpty :=
  List.dropWhile_append_of_pos fun l hl => by rw [h l hl]; rfl

theorem codeText_eq {gap ls after : List Str} (hg : ∀ l ∈ gap, l = []) (ha : ∀ l ∈ after, l = [])
    (h1 : ∃ l, ls.head? = some l ∧ ∃ c, l.head? = some c ∧ isWs c = false) (h2 : ls.getLast? ≠ some []) :
    codeText (gap ++ (ls ++ after)) = unlines ls ++ ['\n'] := by
  obtain ⟨l, hl, c, hc, _⟩ := h1
  cases ls with
  | nil => cases hl
  | cons x ls =>
    simp at hl; subst hl
    cases x with
    | nil => cases hc
    | cons a x =>
      unfold codeText
      rw [dropEmpty hg, List.cons_append, List.dropWhile_cons, List.isEmpty_cons, if_neg (by simp), ← List.cons_append, List.reverse_append,
        dropEmpty (by intro l hl; exact ha l (by simpa using hl))]
      have : (((a :: x) :: ls).reverse).dropWhile List.isEmpty = ((a :: x) :: ls).reverse := by
        cases hr : ((a :: x) :: ls).reverse with
        | nil => rfl
        | cons y ys =>
          have hy : ((a :: x) :: ls).getLast? = some y := by rw [← List.head?_reverse, hr]; rfl
          cases y with
          | nil => exact absurd hy h2
          | cons => rfl
      rw [this, List.reverse_reverse, unlines_join]

theorem code_acts {E : Env} {ps : PS} {f : Frame} {fs : List Frame} {i : Nat} {d : Dir} {gap ls after rest : List Str}
    (H : Meets E ps f fs i ((Leaf.code d gap ls).lines i ++ (after ++ rest))) (hok : (Leaf.code d gap ls).Ok)
    (hb : ∀ l ∈ after, l = []) (hr : Low (i + 1) rest) (ha : childIsAllowed f.data.kind .SphinxCodeBlock = .ok true) :
    Acts ps (bodyDirective E (directiveMatch d i) ps) f fs (Leaf.code d gap ls).nodes
      ((Leaf.code d gap ls).lines i ++ after).length := by
  obtain ⟨hd, hkey, hg, hge, hc, hfirst, hlast⟩ := hok
  have hgb : ∀ l ∈ gap, isBlank l = true := fun l hl => by rw [hge l hl]; rfl
  have hbb : ∀ l ∈ after, isBlank l = true := fun l hl => by rw [hb l hl]; rfl
  have here : E.src.drop ps.cursor.relativeOffset = d.lines i ++ (gap ++ (ls.map (contentLine (i + 3)) ++ (after ++ rest))) := by
    rw [H.here]; simp [Leaf.lines]
  have M : Enters E ps f fs i d (gap ++ (ls.map (contentLine (i + 3)) ++ (after ++ rest))) := by
    refine ⟨⟨here, H.spine, H.indent⟩, hd, ?_⟩
    intro l hl
    cases gap with
    | nil => exact absurd rfl hg
    | cons g gap => simp at hl; subst hl; exact hgb _ (by simp)
  have hbody : bodyOf E ps i d = i + 3 := by
    obtain ⟨l, hl, c, hcl, hcw⟩ := hfirst
    cases ls with
    | nil => cases hl
    | cons x ls =>
      simp at hl; subst hl
      cases x with
      | nil => cases hcl
      | cons a x =>
        simp at hcl; subst hcl
        have e : contentLine (i + 3) (a :: x) = spaces (i + 3) ++ a :: x := by unfold contentLine; rw [if_neg (by simp)]; rfl
        unfold bodyOf
        rw [subsequent_content (l := contentLine (i + 3) (a :: x)) (ls := ls.map (contentLine (i + 3)) ++ (after ++ rest)) here hgb
          (by rw [e]; exact indented_not_blank hcw _) (by rw [e]; exact indentOf_indented hcw _) (fun _ => rfl)]
        rfl
  have hne : ls ≠ [] := by obtain ⟨l, hl, _⟩ := hfirst; rintro rfl; cases hl
  obtain ⟨gap', hg', hsrc, hcount⟩ := behind_gap hg here
  have hread := content_reads (first := none) (s := behindOptions ps d (gap ++ (ls.map (contentLine (i + 3)) ++ (after ++ rest))))
    (k := i + 3) (by omega) hsrc (fun l hl => hgb l (hg' l hl)) (by simpa using hne)
    (by intro l hl; obtain ⟨z, _, rfl⟩ := List.mem_map.mp hl; exact content_indent _ _) hbb (hr.mono (by omega)) (.inl rfl)
  rw [contents_drop] at hread
  have htext : codeText ((gap'.map (·.drop (i + 3))) ++ (ls ++ after.map (·.drop (i + 3)))) = unlines ls ++ ['\n'] :=
    codeText_eq (by intro l hl; obtain ⟨z, hz, rfl⟩ := List.mem_map.mp hl; rw [hge z (hg' z hz)]; rfl)
      (by intro l hl; obtain ⟨z, hz, rfl⟩ := List.mem_map.mp hl; rw [hb z hz]; rfl) hfirst hlast
  have hlang : (d.args.map List.flatten).getD (str! "python") = if d.arg = [] then str! "python" else d.arg := by
    unfold Dir.args
    split <;> simp
  obtain ⟨d', h1, h2, h3⟩ := M.push (data := .SphinxCodeBlock (if d.arg = [] then str! "python" else d.arg)
      (d.has (str! "linenos") || (d.number 64 (str! "lineno-start")).isSome) (d.number 64 (str! "lineno-start"))
      ((d.get (str! "emphasize-lines")).map emphasizeLines) (d.get (str! "caption"))
      ((d.get (str! "name")).map normalizeRefname) (d.number 64 (str! "dedent")) (d.has (str! "force"))
      (unlines ls ++ ['\n'])) ha simple_codeBlock
  unfold Dir.has Dir.number at h1
  refine ⟨some (gap' ++ (ls.map (contentLine (i + 3)) ++ after)).length,
    { behindOptions ps d (gap ++ (ls.map (contentLine (i + 3)) ++ (after ++ rest))) with doc := d' }, ?_, ?_, h2, h3⟩
  · rw [M.dispatch]
    have hdisp : dispatchDirective E d.key (bodyOf E ps i d) (spaces i ++ d.head).length (isBlank d.arg) =
        parseSphinxCodeBlock E (bodyOf E ps i d) (spaces i ++ d.head).length (isBlank d.arg) := by
      rcases hkey with hkey | hkey <;> rw [hkey]
      · exact (dispatch_code ..).1
      · exact (dispatch_code ..).2
    rw [hdisp]
    have hs := M.scan
    rw [hbody] at hs ⊢
    simp only [parseSphinxCodeBlock, bind, P.bind, hs.1, hs.2, hread, htext, hlang, Dir.optionOf, h1, pure, P.pure]
  · show (behindOptions ps d _).cursor.incrementBy _ = _
    unfold behindOptions
    rw [LineCursor.incrementBy_add]
    congr 1
    have e : ((Leaf.code d gap ls).lines i ++ after).length = (d.lines i ++ gap).length + (ls.length + after.length) := by
      simp [Leaf.lines]; omega
    rw [e, ← hcount]
    simp; omega

theorem map_drop_empty {gap : List Str} (k : Nat) (h : ∀ l ∈ gap, l = []) : gap.map (·.drop k) = gap := by
  conv => rhs; rw [← List.map_id gap]
  exact List.map_congr_left fun l hl => by rw [h l hl]; simp

/-- The text of the directive `code` is kept in the node, with the empty lines around it. -/
theorem listing_acts {E : Env} {ps : PS} {f : Frame} {fs : List Frame} {i : Nat} {d : Dir} {gap ls after rest : List Str}
    (H : Meets E ps f fs i ((Leaf.listing d gap ls after).lines i ++ (after ++ rest))) (hok : (Leaf.listing d gap ls after).Ok)
    (hr : Low (i + 1) rest) (ha : childIsAllowed f.data.kind .Code = .ok true) :
    Acts ps (bodyDirective E (directiveMatch d i) ps) f fs (Leaf.listing d gap ls after).nodes
      ((Leaf.listing d gap ls after).lines i ++ after).length := by
  obtain ⟨hd, hkey, hg, hga, hc, hfirst, hlast⟩ := hok
  have hge : ∀ l ∈ gap, l = [] := fun l hl => hga l (by simp [hl])
  have hb : ∀ l ∈ after, l = [] := fun l hl => hga l (by simp [hl])
  have hgb : ∀ l ∈ gap, isBlank l = true := fun l hl => by rw [hge l hl]; rfl
  have hbb : ∀ l ∈ after, isBlank l = true := fun l hl => by rw [hb l hl]; rfl
  have here : E.src.drop ps.cursor.relativeOffset = d.lines i ++ (gap ++ (ls.map (contentLine (i + 3)) ++ (after ++ rest))) := by
    rw [H.here]; simp [Leaf.lines]
  have M : Enters E ps f fs i d (gap ++ (ls.map (contentLine (i + 3)) ++ (after ++ rest))) := by
    refine ⟨⟨here, H.spine, H.indent⟩, hd, ?_⟩
    intro l hl
    cases gap with
    | nil => exact absurd rfl hg
    | cons g gap => simp at hl; subst hl; exact hgb _ (by simp)
  have hbody : bodyOf E ps i d = i + 3 := by
    obtain ⟨l, hl, c, hcl, hcw⟩ := hfirst
    cases ls with
    | nil => cases hl
    | cons x ls =>
      simp at hl; subst hl
      cases x with
      | nil => cases hcl
      | cons a x =>
        simp at hcl; subst hcl
        have e : contentLine (i + 3) (a :: x) = spaces (i + 3) ++ a :: x := by unfold contentLine; rw [if_neg (by simp)]; rfl
        unfold bodyOf
        rw [subsequent_content (l := contentLine (i + 3) (a :: x)) (ls := ls.map (contentLine (i + 3)) ++ (after ++ rest)) here hgb
          (by rw [e]; exact indented_not_blank hcw _) (by rw [e]; exact indentOf_indented hcw _) (fun _ => rfl)]
        rfl
  have hne : ls ≠ [] := by obtain ⟨l, hl, _⟩ := hfirst; rintro rfl; cases hl
  obtain ⟨gap', hg', hsrc, hcount⟩ := behind_gap_eq hg here
  have hsub : ∀ l ∈ gap', l = [] := by
    intro l hl
    rw [hg'] at hl
    split at hl
    · exact hge l hl
    · exact hge l (List.mem_of_mem_tail hl)
  have hread := content_reads (first := none) (s := behindOptions ps d (gap ++ (ls.map (contentLine (i + 3)) ++ (after ++ rest))))
    (k := i + 3) (by omega) hsrc (fun l hl => by rw [hsub l hl]; rfl) (by simpa using hne)
    (by intro l hl; obtain ⟨z, _, rfl⟩ := List.mem_map.mp hl; exact content_indent _ _) hbb (hr.mono (by omega)) (.inl rfl)
  rw [contents_drop, map_drop_empty _ hsub, map_drop_empty _ hb] at hread
  have hlang : d.args.map List.flatten = if d.arg = [] then none else some d.arg := by
    unfold Dir.args
    split <;> simp
  obtain ⟨d', h1, h2, h3⟩ := M.push (data := .Code (unlines ((if d.opts = [] then gap else gap.tail) ++ ls ++ after))
      (if d.arg = [] then none else some d.arg) (d.get (str! "name")) (d.get (str! "class")) (d.get (str! "number-lines"))) ha simple_listing
  rw [← hg', unlines_join, List.append_assoc] at h1
  refine ⟨some (gap' ++ (ls.map (contentLine (i + 3)) ++ after)).length,
    { behindOptions ps d (gap ++ (ls.map (contentLine (i + 3)) ++ (after ++ rest))) with doc := d' }, ?_, ?_, h2, h3⟩
  · rw [M.dispatch, hkey, dispatch_listing]
    have hs := M.scan
    rw [hbody] at hs ⊢
    simp only [parseCode, bind, P.bind, hs.1, hs.2, hread, hlang, Dir.optionOf, h1, pure, P.pure]
  · show (behindOptions ps d _).cursor.incrementBy _ = _
    unfold behindOptions
    rw [LineCursor.incrementBy_add]
    congr 1
    have e : ((Leaf.listing d gap ls after).lines i ++ after).length = (d.lines i ++ gap).length + (ls.length + after.length) := by
      simp [Leaf.lines]; omega
    rw [e, ← hcount]
    simp; omega

/-! ## Formulas -/

theorem group_indent {g : List Str} (h : Group g) (k : Nat) : ∀ l ∈ g.map (indentLine k), k ≤ indentOf l := by
  intro l hl
  obtain ⟨x, _, rfl⟩ := List.mem_map.mp hl
  unfold indentLine indentOf
  rw [List.takeWhile_append_of_pos (by intro c hc; rw [List.eq_of_mem_replicate hc]; decide)]
  simp

theorem indents_drop (k : Nat) (ls : List Str) : (ls.map (indentLine k)).map (·.drop k) = ls := by
  rw [List.map_map]
  conv => rhs; rw [← List.map_id ls]
  exact List.map_congr_left fun l _ => drop_indentLine k l

theorem Spec.Group.ne {g : List Str} (h : Group g) : g ≠ [] := by
  obtain ⟨l, hl, _⟩ := h.first
  rintro rfl; cases hl

/-- The groups of formulas with blank lines between them. -/
theorem groups_more (k : Nat) {after : List Str} (ha : ∀ l ∈ after, isBlank l = true) : ∀ {more : List (List Str × List Str)},
    (∀ x ∈ more, x.1 ≠ [] ∧ (∀ l ∈ x.1, isBlank l = true) ∧ Group x.2) →
    Groups (((more.map fun x => x.1 ++ x.2.map (indentLine k)).flatten ++ after).map (·.drop k)) (more.map (·.2)) ∧
    ∀ l, (((more.map fun x => x.1 ++ x.2.map (indentLine k)).flatten ++ after).map (·.drop k)).head? = some l → isBlank l = true
  | [], _ => by
    have hb : ∀ l ∈ after.map (·.drop k), isBlank l = true := by
      intro l hl; obtain ⟨z, hz, rfl⟩ := List.mem_map.mp hl; exact blank_drop (ha z hz) _
    refine ⟨.blank _ (by simpa using hb), ?_⟩
    intro l hl
    exact hb l (by simpa using List.mem_of_head? hl)
  | x :: more, h => by
    obtain ⟨h1, h2⟩ := groups_more k ha (more := more) (fun y hy => h y (by simp [hy]))
    obtain ⟨hx, hb, hg⟩ := h x (by simp)
    have e : (((x :: more).map fun x => x.1 ++ x.2.map (indentLine k)).flatten ++ after).map (·.drop k) =
        x.1.map (·.drop k) ++ x.2 ++ ((more.map fun x => x.1 ++ x.2.map (indentLine k)).flatten ++ after).map (·.drop k) := by
      simp only [List.map_cons, List.flatten_cons, List.map_append, List.append_assoc]
      rw [indents_drop]
    have hbb : ∀ l ∈ x.1.map (·.drop k), isBlank l = true := by
      intro l hl; obtain ⟨z, hz, rfl⟩ := List.mem_map.mp hl; exact blank_drop (hb z hz) _
    rw [e]
    refine ⟨.group _ _ _ _ hbb hg.ne hg.visible h2 h1, ?_⟩
    intro l hl
    cases hx1 : x.1 with
    | nil => exact absurd hx1 hx
    | cons y ys =>
      rw [hx1] at hl hbb
      simp only [List.map_cons, List.cons_append, List.head?_cons, Option.some.injEq] at hl
      subst hl
      exact hbb _ (by simp)

theorem formulas_acts {E : Env} {ps : PS} {f : Frame} {fs : List Frame} {i : Nat} {d : Dir} {gap g after rest : List Str}
    {more : List (List Str × List Str)}
    (H : Meets E ps f fs i ((Leaf.formulas d gap g more).lines i ++ (after ++ rest))) (hok : (Leaf.formulas d gap g more).Ok)
    (hb : ∀ l ∈ after, isBlank l = true) (hr : Low (i + 1) rest) (ha : childIsAllowed f.data.kind .MathBlock = .ok true) :
    Acts ps (bodyDirective E (directiveMatch d i) ps) f fs (Leaf.formulas d gap g more).nodes
      ((Leaf.formulas d gap g more).lines i ++ after).length := by
  obtain ⟨hd, hkey, harg, hg, hgb, hgr, hmore⟩ := hok
  have hall : ∀ x ∈ g :: more.map (·.2), Group x := by
    intro x hx
    rcases List.mem_cons.mp hx with rfl | hx
    · exact hgr
    · obtain ⟨y, hy, rfl⟩ := List.mem_map.mp hx; exact (hmore y hy).2.2
  generalize hC : g.map (indentLine (i + 3)) ++ (more.map fun x => x.1 ++ x.2.map (indentLine (i + 3))).flatten = C
  have here : E.src.drop ps.cursor.relativeOffset = d.lines i ++ (gap ++ (C ++ (after ++ rest))) := by
    rw [H.here, ← hC]; simp [Leaf.lines]
  have M : Enters E ps f fs i d (gap ++ (C ++ (after ++ rest))) := by
    refine ⟨⟨here, H.spine, H.indent⟩, hd, ?_⟩
    intro l hl
    cases gap with
    | nil => exact absurd rfl hg
    | cons g gap => simp at hl; subst hl; exact hgb _ (by simp)
  have hhead : ∃ a x C', C = (spaces (i + 3) ++ a :: x) :: C' ∧ isWs a = false := by
    obtain ⟨l, hl, c, hcl, hcw⟩ := hgr.first
    cases g with
    | nil => cases hl
    | cons y g =>
      simp at hl; subst hl
      cases y with
      | nil => cases hcl
      | cons a x => simp at hcl; subst hcl; exact ⟨a, x, _, hC.symm, hcw⟩
  have hbody : bodyOf E ps i d = i + 3 := by
    obtain ⟨a, x, C', rfl, hcw⟩ := hhead
    unfold bodyOf
    rw [subsequent_content (l := spaces (i + 3) ++ a :: x) (ls := C' ++ (after ++ rest)) here hgb
      (indented_not_blank hcw _) (indentOf_indented hcw _) (fun _ => rfl)]
    rfl
  have hne : C ≠ [] := by obtain ⟨a, x, C', rfl, _⟩ := hhead; simp
  have hCk : ∀ l ∈ C, isBlank l = true ∨ i + 3 ≤ indentOf l := by
    intro l hl
    rw [← hC] at hl
    rcases List.mem_append.mp hl with hl | hl
    · exact .inr (group_indent hgr _ l hl)
    · obtain ⟨y, hy, hl⟩ := List.mem_flatten.mp hl
      obtain ⟨z, hz, rfl⟩ := List.mem_map.mp hy
      rcases List.mem_append.mp hl with hl | hl
      · exact .inl ((hmore z hz).2.1 l hl)
      · exact .inr (group_indent (hmore z hz).2.2 _ l hl)
  obtain ⟨gap', hg', hsrc, hcount⟩ := behind_gap hg here
  have hread := content_reads (first := some (i + 3)) (s := behindOptions ps d (gap ++ (C ++ (after ++ rest))))
    (k := i + 3) (by omega) hsrc (fun l hl => hgb l (hg' l hl)) hne hCk hb (hr.mono (by omega)) (.inr rfl)
  have hblocks : mathBlocks ((gap'.map (·.drop (i + 3))) ++ ((C.map (·.drop (i + 3))) ++ after.map (·.drop (i + 3)))) =
      (g :: more.map (·.2)).map blockText := by
    obtain ⟨gs, k1, k2⟩ := mathBlocksFrom_spec ((gap'.map (·.drop (i + 3))) ++ ((C.map (·.drop (i + 3))) ++ after.map (·.drop (i + 3)))) []
      (by simp)
    obtain ⟨m1, m2⟩ := groups_more (i + 3) hb hmore
    have hG : Groups ((gap'.map (·.drop (i + 3))) ++ ((C.map (·.drop (i + 3))) ++ after.map (·.drop (i + 3)))) (g :: more.map (·.2)) := by
      have e : (gap'.map (·.drop (i + 3))) ++ ((C.map (·.drop (i + 3))) ++ after.map (·.drop (i + 3))) =
          gap'.map (·.drop (i + 3)) ++ g ++
            ((more.map fun x => x.1 ++ x.2.map (indentLine (i + 3))).flatten ++ after).map (·.drop (i + 3)) := by
        rw [← hC, List.map_append, indents_drop]; simp
      rw [e]
      refine .group _ _ _ _ ?_ hgr.ne hgr.visible m2 m1
      intro l hl; obtain ⟨z, hz, rfl⟩ := List.mem_map.mp hl; exact blank_drop (hgb z (hg' z hz)) _
    have := k1.unique (gs' := g :: more.map (·.2)) (by simpa using hG)
    rw [← this]; exact k2
  have hnodes : mathNodes (d.get (str! "name")) (d.get (str! "class"))
      (if ((g :: more.map (·.2)).map blockText).length = 1 then none else some 0) ((g :: more.map (·.2)).map blockText) =
      formulaNodes d (g :: more.map (·.2)) := by
    rw [mathNodes_eq]
    unfold formulaNodes
    apply List.ext_getElem
    · simp
    · intro j hj hj'
      simp only [List.getElem_mapIdx]
      have hx := hall _ (List.getElem_mem (by simpa using hj) : (g :: more.map (·.2))[j]'(by simpa using hj) ∈ _)
      obtain ⟨l, hl, c, hc, hw⟩ := hx.first
      obtain ⟨x, hx', b, hxb, hwb⟩ := hx.last
      have := trim_lines (bs := []) hl hc hw hx' hxb hwb (by simp)
      rw [List.append_nil] at this
      rw [this]; rfl
  have hmath : ∀ n ∈ formulaNodes d (g :: more.map (·.2)), n.kind = .MathBlock := by
    intro n hn
    unfold formulaNodes at hn
    obtain ⟨j, hj, rfl⟩ := List.mem_mapIdx.mp hn
    rfl
  obtain ⟨n0, ns, hcons⟩ : ∃ n ns, formulaNodes d (g :: more.map (·.2)) = n :: ns := ⟨_, _, by unfold formulaNodes; rw [List.mapIdx_cons]⟩
  have hn0 : n0.kind = .MathBlock := hmath n0 (by rw [hcons]; simp)
  obtain ⟨d', h1, h2, h3⟩ := Spine.add_targets (s := behindOptions ps d (gap ++ (C ++ (after ++ rest)))) (data := n0) (nodes := ns)
    H.spine (by
      intro n hn
      have := hmath n (by rw [hcons]; exact hn)
      rw [this]
      exact ⟨ha, simple_math⟩) (by rw [hn0]; decide) (by rw [hn0]; decide)
  rw [← hcons] at h1 h2
  refine ⟨some (gap' ++ (C ++ after)).length, { behindOptions ps d (gap ++ (C ++ (after ++ rest))) with doc := d' }, ?_, ?_, h2, h3⟩
  · rw [M.dispatch, hkey, dispatch_math]
    have hs := M.scan
    rw [hbody] at hs ⊢
    have hemp : ((g :: more.map (·.2)).map blockText).isEmpty = false := rfl
    simp only [parseMathBlock, bind, P.bind, hs.1, hs.2, Dir.args_none harg, hread, hblocks, hemp, Bool.false_eq_true, if_false,
      Dir.optionOf, hnodes, h1, pure, P.pure]
  · show (behindOptions ps d _).cursor.incrementBy _ = _
    unfold behindOptions
    rw [LineCursor.incrementBy_add]
    congr 1
    have e : ((Leaf.formulas d gap g more).lines i ++ after).length = (d.lines i ++ gap).length + (C.length + after.length) := by
      rw [← hC]; simp [Leaf.lines]; omega
    rw [e, ← hcount]
    simp; omega

end Rustla
