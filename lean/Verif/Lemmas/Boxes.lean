import Verif.Lemmas.Leaves
import Verif.Lemmas.Nested
import Verif.Lemmas.First
/-! # Steps of the loop at comments and directives -/
namespace Rustla
open Spec

theorem noBreak_dots {st : State} (i : Nat) (t : Str) : NoBreak st (indentLine i (str! ".. " ++ t)) :=
  noBreak_indented (c := '.') (t := '.' :: ' ' :: t) (by decide) (by rintro ⟨x, hx⟩; simp at hx)
    (fun _ => by rintro (⟨x, hx⟩ | ⟨x, hx⟩) <;> simp at hx)

theorem noBreak_dir {st : State} {d : Dir} (h : d.Ok) (i : Nat) : NoBreak st (indentLine i d.marker) := by
  obtain ⟨a, n, ha, e⟩ := h.dots i
  rw [e]
  exact noBreak_dots i _

/-- What a block without blocks in it does: it is recognised by its first line and adds its nodes. -/
structure LeafRuns (E : Env) (ps : PS) (f : Frame) (fs : List Frame) (L : Leaf) (i : Nat) (gap rest : List Str) : Prop where
  runs : ∃ l ls m t k gap', L.lines i ++ (gap ++ rest) = l :: ls ∧ (∀ st, NoBreak st l) ∧ firstTransition l (bodyTable E) = some (m, t) ∧
    Acts ps (t m ps) f fs L.nodes k ∧ k ≠ 0 ∧ k ≤ (l :: ls).length ∧ (l :: ls).drop k = gap' ++ rest ∧ ∀ x ∈ gap', isBlank x = true

theorem Leaf.GapOk.blank {L : Leaf} {gap : List Str} (h : L.GapOk gap) : gap ≠ [] ∧ ∀ l ∈ gap, isBlank l = true := by
  refine ⟨h.1, fun l hl => ?_⟩
  have := h.2
  cases L <;> first | exact this l hl | (rw [this l hl]; rfl) | (rw [this.2 l hl]; rfl)

theorem Stops.gap {gap rest : List Str} (hg : gap ≠ []) (hb : ∀ l ∈ gap, isBlank l = true) : Stops (gap ++ rest) := by
  intro l hl
  cases gap with
  | nil => exact absurd rfl hg
  | cons g gap => simp at hl; subst hl; exact hb _ (by simp)

/-- A directive without content. -/
theorem short_runs {E : Env} {ps : PS} {f : Frame} {fs : List Frame} {L : Leaf} {i : Nat} {d : Dir} {gap rest : List Str}
    (H : Meets E ps f fs i (L.lines i ++ (gap ++ rest))) (hL : L.lines i = d.lines i) (hd : d.Ok) (hg : gap ≠ [])
    (hb : ∀ l ∈ gap, isBlank l = true)
    (h : Enters E ps f fs i d (gap ++ rest) →
      Acts ps (bodyDirective E (directiveMatch d i) ps) f fs L.nodes (1 + d.optionCount (gap ++ rest))) :
    LeafRuns E ps f fs L i gap rest := by
  have hsrc := H.here
  rw [hL] at hsrc
  have M : Enters E ps f fs i d (gap ++ rest) := ⟨⟨hsrc, H.spine, H.indent⟩, hd, .gap hg hb⟩
  obtain ⟨gap', hg', hdrop, hcount⟩ := behind_gap hg hsrc
  have hd2 := drop_incr hsrc (1 + d.optionCount (gap ++ rest))
  unfold behindOptions at hdrop
  rw [hdrop] at hd2
  refine ⟨indentLine i d.marker, d.opts.map (fun o => indentLine (i + 3) (optionLine o)) ++ (gap ++ rest), _, _,
    1 + d.optionCount (gap ++ rest), gap', by rw [hL]; rfl, fun _ => noBreak_dir hd i, (directive_transition E hd i).1, h M, by omega, ?_, hd2.symm,
    fun x hx => hb x (hg' x hx)⟩
  have e : (indentLine i d.marker :: (d.opts.map (fun o => indentLine (i + 3) (optionLine o)) ++ (gap ++ rest))).length =
      (d.lines i ++ gap).length + rest.length := by simp [Dir.lines]; omega
  rw [e]; omega

theorem leaf_runs {E : Env} {ps : PS} {f : Frame} {fs : List Frame} {L : Leaf} {i : Nat} {gap rest : List Str}
    (H : Meets E ps f fs i (L.lines i ++ (gap ++ rest))) (hL : L.Ok) (hg : L.GapOk gap) (hr : Low (i + 1) rest)
    (hf : ∀ k : Kind, .Body ∈ k.categories → childIsAllowed f.data.kind k = .ok true) : LeafRuns E ps f fs L i gap rest := by
  obtain ⟨hne, hb⟩ := Leaf.GapOk.blank hg
  have long : ∀ {l : Str} {ls : List Str} {m : Match} {t : Transition}, L.lines i = l :: ls → (∀ st, NoBreak st l) →
      firstTransition l (bodyTable E) = some (m, t) → Acts ps (t m ps) f fs L.nodes (L.lines i ++ gap).length →
      LeafRuns E ps f fs L i gap rest := by
    intro l ls m t e h0 h1 h2
    refine ⟨l, ls ++ (gap ++ rest), m, t, (L.lines i ++ gap).length, [], by rw [e]; rfl, h0, h1, h2, by rw [e]; simp, by rw [e]; simp, ?_, by simp⟩
    rw [e]
    have : l :: (ls ++ (gap ++ rest)) = (l :: ls ++ gap) ++ rest := by simp
    rw [this, List.drop_left]; rfl
  cases L with
  | comment l ls =>
    exact long rfl (fun _ => noBreak_dots i l) (comment_transition E hL.1 hL.2.1 hL.2.2.1 hL.2.2.2.1 i).1 (comment_acts H hL hne hb hr (hf _ (by decide)))
  | image d => exact short_runs H rfl hL.1 hne hb fun M => image_acts M hL.2.1 hL.2.2 (hf _ (by decide))
  | code d g ls =>
    exact long (by rfl) (fun _ => noBreak_dir hL.1 i) (directive_transition E hL.1 i).1 (code_acts H hL hg.2 hr (hf _ (by decide)))
  | listing d g ls tl =>
    obtain ⟨_, rfl, _⟩ := hg
    exact long (by rfl) (fun _ => noBreak_dir hL.1 i) (directive_transition E hL.1 i).1 (listing_acts H hL hr (hf _ (by decide)))
  | formula d => exact short_runs H rfl hL.1 hne hb fun M => formula_acts M hL.2.1 hL.2.2 (hf _ (by decide))
  | formulas d g x more =>
    exact long (by rfl) (fun _ => noBreak_dir hL.1 i) (directive_transition E hL.1 i).1 (formulas_acts H hL hb hr (hf _ (by decide)))
  | input d =>
    exact short_runs H rfl hL.1 hne hb fun M => input_acts M hL.2.1 hL.2.2.1 hL.2.2.2.1 hL.2.2.2.2 (hf _ (by decide))
  | output d =>
    exact short_runs H rfl hL.1 hne hb fun M => output_acts M hL.2.1 hL.2.2.1 hL.2.2.2.1 hL.2.2.2.2 (hf _ (by decide))

/-- A comment or a directive without blocks adds its nodes to the focused node; the first one gets the labels of the targets before it. -/
theorem AtL.leaf_targets {labels : List Str} {E : Env} {S : SectionData} {os : List Frame} {s : LoopState} {f : Frame} {fs : List Frame} {L : Leaf} {gap rest : List Str}
    {c i j : Nat} (hij : i + E.baseIndent = j) (h : AtL labels E S os s (f :: fs) (L.lines i ++ (gap ++ rest)) c) (hc : c ≤ 9) (hf : f.Body E j)
    (hL : L.Ok) (hg : L.GapOk gap) (hr : Low (i + 1) rest) :
    Leads E S os s (f.add (labelFirst labels (L.nodes.map (.node · []))) :: fs) rest 0 := by
  obtain ⟨l, ls, m, t, k, gap', e, hbr, ht, ⟨adv, ps', hres, hadv, hsp, hnotes⟩, hk, hk', hdrop, hb⟩ :=
    (leaf_runs (gap := gap) (rest := rest) ⟨h.here, h.spine, by rw [hij]; exact hf.indent⟩ hL hg hr hf.kids).runs
  rw [h.pending] at hsp
  rw [h.secs] at hnotes
  rw [e] at h
  obtain ⟨ts, hts, hts'⟩ := hf.table
  have hstep := step_moved (h.stands hc) hts hf.notEnd ((hts' _ (hbr _)).trans ht) hres (stack := s.stack) rfl hadv hk hk'
  rw [hdrop] at hstep
  have hat := drop_incr h.here k
  rw [hdrop] at hat
  have h2 : Leads E S os s (f.add (labelFirst labels (L.nodes.map (.node · []))) :: fs) (gap' ++ rest) 0 := by
    refine ⟨_, .step hstep, ⟨?_, hsp, ?_, Nat.le_refl _, hnotes⟩⟩
    · exact hat
    · rw [h.stack_cons]; simp [stackFor, Frame.add]
  obtain ⟨s1, k1, k2⟩ := h2
  exact k1.leads (k2.blanks (hf.add _).readable hb)

theorem labelFirst_nil (ss : List Shape) : labelFirst [] ss = ss := by
  cases ss with
  | nil => rfl
  | cons s ss => cases s; rfl

/-- A comment or a directive without blocks adds its nodes to the focused node. -/
theorem AtL.leaf {E : Env} {S : SectionData} {os : List Frame} {s : LoopState} {f : Frame} {fs : List Frame} {L : Leaf} {gap rest : List Str}
    {c i j : Nat} (hij : i + E.baseIndent = j) (h : At E S os s (f :: fs) (L.lines i ++ (gap ++ rest)) c) (hc : c ≤ 9) (hf : f.Body E j)
    (hL : L.Ok) (hg : L.GapOk gap) (hr : Low (i + 1) rest) :
    Leads E S os s (f.add (L.nodes.map (.node · [])) :: fs) rest 0 := by
  have := AtL.leaf_targets hij h hc hf hL hg hr
  rwa [labelFirst_nil] at this

/-! ## Directives that contain blocks -/

/-- The state of the parser in a directive. -/
def boxState : Box → State
  | .admonition _ => .Admonition
  | .only _ => .Body
  | .unknown _ => .Body
  | .note _ => .Admonition
  | .poi _ => .AplusMultiCol
  | .submit .. => .Body
  | .figure _ => .Figure

/-- The open node of a directive with some blocks. -/
abbrev boxFrame (X : Box) (i : Nat) (ss : List Shape) : Frame := ⟨boxState X, X.node i, X.kids.map (.node · []) ++ ss, []⟩

theorem boxFrame_body (E : Env) (X : Box) (i : Nat) (ss : List Shape) : (boxFrame X i ss).Body E (i + 3) := by
  cases X with
  | admonition d => exact ⟨.of rfl, by simp [State.readable, boxState], rfl, fun _ => takes_body rfl (by decide)⟩
  | only d => exact ⟨.of rfl, by simp [State.readable, boxState], rfl, fun _ => takes_body rfl (by decide)⟩
  | unknown d => exact ⟨.of rfl, by simp [State.readable, boxState], rfl, fun _ => takes_body rfl (by decide)⟩
  | note d => exact ⟨.of rfl, by simp [State.readable, boxState], rfl, fun _ => takes_body rfl (by decide)⟩
  | poi d => exact ⟨.columns E, by simp [State.readable, boxState], rfl, fun _ => takes_body rfl (by decide)⟩
  | submit d a => exact ⟨.of rfl, by simp [State.readable, boxState], rfl, fun _ => takes_body rfl (by decide)⟩
  | figure d => exact ⟨.of rfl, by simp [State.readable, boxState], rfl, fun _ => takes_body rfl (by decide)⟩

theorem dispatch_admonition (E : Env) (b k : Nat) (e : Bool) :
    dispatchDirective E (str! "admonition") b k e = parseGenericAdmonition E b k e := rfl
theorem dispatch_only (E : Env) (b k : Nat) (e : Bool) : dispatchDirective E (str! "only") b k e = parseSphinxOnly E b k e := rfl

theorem dispatch_unknown (E : Env) {name : Str} (h : name ∉ knownNames) (b k : Nat) (e : Bool) :
    dispatchDirective E name b k e = parseUnknownDirective E name b k e := by
  have hs : ∀ x ∈ knownNames, ¬ name = x := fun x hx e => h (e ▸ hx)
  have h1 : standardAdmonition name = none := by
    unfold standardAdmonition
    simp only [hs (str! "attention") (by decide), hs (str! "caution") (by decide), hs (str! "danger") (by decide),
      hs (str! "error") (by decide), hs (str! "hint") (by decide), hs (str! "important") (by decide), hs (str! "note") (by decide),
      hs (str! "tip") (by decide), hs (str! "warning") (by decide), if_false]
  unfold dispatchDirective
  rw [h1]
  simp only [hs (str! "admonition") (by decide), hs (str! "image") (by decide), hs (str! "figure") (by decide),
    hs (str! "code") (by decide), hs (str! "math") (by decide), hs (str! "list-table") (by decide), hs (str! "footnotes") (by decide),
    hs (str! "citations") (by decide), hs (str! "class") (by decide), hs (str! "code-block") (by decide),
    hs (str! "sourcecode") (by decide), hs (str! "only") (by decide), hs (str! "questionnaire") (by decide),
    hs (str! "submit") (by decide), hs (str! "ae-input") (by decide), hs (str! "ae-output") (by decide),
    hs (str! "point-of-interest") (by decide), if_false, or_self]

theorem simple_box (X : Box) (i : Nat) : Simple (X.node i).kind := by
  cases X <;> exact ⟨by simp [Box.node, NodeType.kind], by simp [Box.node, NodeType.kind], by simp [Box.node, NodeType.kind],
    by simp [Box.node, NodeType.kind], by simp [Box.node, NodeType.kind]⟩

theorem mapInsert_new {l : List (Str × Str)} {k v : Str} (h : k ∉ l.map (·.1)) : mapInsert l k v = l ++ [(k, v)] := by
  induction l with
  | nil => rfl
  | cons x l ih =>
    obtain ⟨a, b⟩ := x
    simp only [List.map_cons, List.mem_cons, not_or] at h
    simp only [mapInsert, if_neg (Ne.symm h.1), ih h.2, List.cons_append]

theorem fold_insert : ∀ (l acc : List (Str × Str)), ((acc ++ l).map (·.1)).Nodup →
    l.foldl (fun m o => mapInsert m o.1 o.2) acc = acc ++ l
  | [], acc, _ => by simp
  | o :: l, acc, h => by
    have hnew : o.1 ∉ acc.map (·.1) := by
      rw [List.map_append, List.nodup_append] at h
      intro hm
      exact h.2.2 _ hm o.1 (by simp) rfl
    rw [List.foldl_cons, mapInsert_new hnew, fold_insert l _ (by simpa using h)]
    simp

theorem Spec.Dir.options_eq {d : Dir} (h : (d.opts.map (·.1)).Nodup) : d.options.getD [] = d.opts := by
  unfold Dir.options
  split
  · rename_i e; rw [e]; rfl
  · exact fold_insert d.opts [] (by simpa using h)

theorem fromTable_mem {α : Type} {table : List (Str × α)} {t : Str} {a : α} (h : fromTable table t = some a) : (t, a) ∈ table := by
  unfold fromTable at h
  cases hf : table.find? (fun x => decide (x.1 = t)) with
  | none => simp [hf] at h
  | some x =>
    simp [hf] at h
    have h1 := List.find?_some hf
    have h2 := List.mem_of_find?_eq_some hf
    simp at h1
    rw [← h1, ← h]; exact h2

theorem dispatch_poi (E : Env) (b k : Nat) (e : Bool) :
    dispatchDirective E (str! "point-of-interest") b k e = parsePointOfInterest E b k e := rfl
theorem dispatch_submit (E : Env) (b k : Nat) (e : Bool) : dispatchDirective E (str! "submit") b k e = parseSubmit E b k e := rfl
theorem dispatch_figure (E : Env) (b k : Nat) (e : Bool) : dispatchDirective E (str! "figure") b k e = parseFigure E b k e := rfl

theorem alignment_table (t : Str) (h : trim t = t) : strToHorizontalAlignment t = fromTable alignments t := by
  unfold strToHorizontalAlignment fromTable alignments
  rw [h]
  simp only [List.find?_cons, List.find?_nil, eq_comm (a := t)]
  split
  · rename_i e; simp [e]
  · rename_i e; simp only [e, decide_false]
    split
    · rename_i e; simp [e]
    · rename_i e; simp only [e, decide_false]
      split
      · rename_i e; simp [e]
      · rename_i e; simp [e]

theorem tokenizer_names : ∀ x ∈ tokenizers, radarTokenizer (some x.1) = some x.2 ∧ x.2 ≠ .None := by decide

theorem tokenizer_table {t : Str} {v : AplusRadarTokenizer} (h : fromTable tokenizers t = some v) (_ht : trim t = t) :
    radarTokenizer (some t) = some v ∧ v ≠ .None := tokenizer_names _ (fromTable_mem h)

/-- The lines behind a directive tell the indentation of its content: they are the content, or the directive has options. -/
def Fills (i : Nat) (X : Box) (cont : List Str) : Prop :=
  (∃ l ls, cont = l :: ls ∧ isBlank l = false ∧ indentOf l = i + 3) ∨ X.dir.opts ≠ []

/-- The state behind the first lines of a directive with blocks. -/
theorem box_opens {E : Env} {ps : PS} {f : Frame} {fs : List Frame} {X : Box} {i : Nat} {gap cont : List Str}
    (H : Meets E ps f fs i (X.dir.lines i ++ (gap ++ cont))) (hX : X.Ok) (hap : X.apart = false) (hg : gap ≠ []) (hb : ∀ l ∈ gap, isBlank l = true)
    (hcont : Fills i X cont) (hf : ∀ k : Kind, .Body ∈ k.categories → childIsAllowed f.data.kind k = .ok true) :
    ∃ adv ps' k gap', bodyDirective E (directiveMatch X.dir i) ps = .ok (.push [boxState X], adv) ps' ∧
      applyAdvance ps'.cursor adv = ps.cursor.incrementBy k ∧ k ≠ 0 ∧
      k ≤ (X.dir.lines i ++ (gap ++ cont)).length ∧
      (X.dir.lines i ++ (gap ++ cont)).drop k = gap' ++ cont ∧ (∀ x ∈ gap', isBlank x = true) ∧
      Spine ps'.doc.tree ({ boxFrame X i [] with extra := ps.doc.hyperref.accumulated } :: f :: fs) ∧ ps'.doc.notes = (ps.doc.notes.1, []) := by
  have hd : X.dir.Ok := by cases X <;> exact hX.1
  have M : Enters E ps f fs i X.dir (gap ++ cont) := ⟨H, hd, .gap hg hb⟩
  have hbody : bodyOf E ps i X.dir = i + 3 := by
    rcases hcont with ⟨l, ls, rfl, hl, hi⟩ | ho
    · unfold bodyOf
      rw [subsequent_content H.here hb hl hi (fun _ => rfl)]; rfl
    · exact M.body ho
  obtain ⟨gap', hg', hdrop, hcount⟩ := behind_gap hg H.here
  have hd2 := drop_incr H.here (1 + X.dir.optionCount (gap ++ cont))
  have hdrop' := hdrop
  unfold behindOptions at hdrop'
  rw [hdrop'] at hd2
  have hk : (X.node i).kind.hasChildren = true := by cases X <;> rfl
  have hcat : .Body ∈ (X.node i).kind.categories := by cases X <;> simp [Box.node, NodeType.kind, Kind.categories]
  have hlen : 1 + X.dir.optionCount (gap ++ cont) ≤ (X.dir.lines i ++ (gap ++ cont)).length := by
    have : (X.dir.lines i ++ (gap ++ cont)).length = (X.dir.lines i ++ gap).length + (cont).length := by
      simp only [List.length_append]; omega
    omega
  have hs := M.scan
  rw [hbody] at hs
  cases X with
  | note d => cases hap
  | admonition d =>
    obtain ⟨d', h1, h2, h3⟩ := Spine.push_targets (s := behindOptions ps d (gap ++ cont)) H.spine (data := (Box.admonition d).node i)
      .Admonition (hf _ hcat) (simple_box _ i) hk rfl
    refine ⟨none, { behindOptions ps d (gap ++ cont) with doc := d' }, _, gap', ?_, rfl, by omega, hlen, hd2.symm,
      fun x hx => hb x (hg' x hx), h2, h3⟩
    rw [M.dispatch, show (Box.admonition d).dir.key = _ from hX.2.1, dispatch_admonition, hbody]
    simp only [Box.node] at h1
    simp only [parseGenericAdmonition, bind, P.bind, hs.1, hs.2, Dir.args_some (show (Box.admonition d).dir.arg ≠ [] from hX.2.2), P.required, pure, P.pure,
      Dir.optionOf, joinWith]
    simp only [Box.dir, h1]; rfl
  | only d =>
    have ho : d.opts = [] := hX.2.2.2
    obtain ⟨d', h1, h2, h3⟩ := Spine.push_targets (s := { ps with cursor := ps.cursor.incrementBy 1 }) H.spine (data := (Box.only d).node i)
      .Body (hf _ hcat) (simple_box _ i) hk rfl
    have hlines : d.lines i = [indentLine i d.marker] := by unfold Dir.lines; rw [ho]; rfl
    refine ⟨some 1, { ps with doc := d', cursor := ps.cursor.incrementBy 1 }, 2, gap.tail, ?_, ?_, by omega, ?_, ?_, ?_, h2, h3⟩
    · rw [M.dispatch, show (Box.only d).dir.key = _ from hX.2.1, dispatch_only, hbody]
      have he : d.arg.isEmpty = false := by
        cases ha : d.arg with
        | nil => exact absurd ha hX.2.2.1
        | cons => rfl
      simp only [Box.node] at h1
      simp only [parseSphinxOnly, bind, P.bind, hs.1, Dir.args_some (show (Box.only d).dir.arg ≠ [] from hX.2.2.1), pure, P.pure,
        Option.map_some, Option.getD_some, joinWith]
      have hif : ∀ (a b : P Moves), (if d.arg.isEmpty then a else b) = b := fun a b => if_neg (by rw [he]; simp)
      refine (congrFun (hif _ _) _).trans ?_
      simp only [P.bind, Box.dir, h1]; rfl
    · show (ps.cursor.incrementBy 1).incrementBy 1 = _
      rw [LineCursor.incrementBy_add]
    · show 2 ≤ (d.lines i ++ (gap ++ cont)).length
      rw [hlines]
      cases gap with
      | nil => exact absurd rfl hg
      | cons g gap => simp
    · show (d.lines i ++ (gap ++ cont)).drop 2 = _
      rw [hlines]
      cases gap with
      | nil => exact absurd rfl hg
      | cons g gap => rfl
    · intro x hx; exact hb x (List.mem_of_mem_tail hx)
  | unknown d =>
    obtain ⟨d', h1, h2, h3⟩ := Spine.push_targets (s := behindOptions ps d (gap ++ cont)) H.spine (data := (Box.unknown d).node i)
      .Body (hf _ hcat) (simple_box _ i) hk rfl
    refine ⟨none, { behindOptions ps d (gap ++ cont) with doc := d' }, _, gap', ?_, rfl, by omega, hlen, hd2.symm,
      fun x hx => hb x (hg' x hx), h2, h3⟩
    have harg : Rustla.trim ((d.args.map (joinWith [' '])).getD []) = d.arg := by
      rcases hX.2.2.1 with e | e
      · rw [Dir.args_none e, e]; rfl
      · have hne : d.arg ≠ [] := by intro h; rw [h] at e; obtain ⟨⟨⟨c, hc, _⟩, _⟩, _⟩ := e; cases hc
        rw [Dir.args_some hne]
        exact e.trim
    rw [M.dispatch, dispatch_unknown E (show (Box.unknown d).dir.key ∉ _ from hX.2.1), hbody]
    simp only [Box.node] at h1
    simp only [parseUnknownDirective, bind, P.bind, hs.1, hs.2, pure, P.pure]
    simp only [Box.dir, harg, Dir.options_eq hX.2.2.2, h1]; rfl

  | poi d =>
    obtain ⟨d', h1, h2, h3⟩ := Spine.push_targets (s := behindOptions ps d (gap ++ cont)) H.spine (data := (Box.poi d).node i)
      .AplusMultiCol (hf _ hcat) (simple_box _ i) hk rfl
    refine ⟨none, { behindOptions ps d (gap ++ cont) with doc := d' }, _, gap', ?_, rfl, by omega, hlen, hd2.symm,
      fun x hx => hb x (hg' x hx), h2, h3⟩
    have harg : (d.args.map (joinWith [' '])).getD [] = d.arg := by
      by_cases e : d.arg = []
      · rw [Dir.args_none e, e]; rfl
      · rw [Dir.args_some e]; rfl
    rw [M.dispatch, show (Box.poi d).dir.key = _ from hX.2, dispatch_poi, hbody]
    simp only [Box.node, Dir.length] at h1
    simp only [parsePointOfInterest, bind, P.bind, hs.1, hs.2, pure, P.pure, Dir.optionOf]
    simp only [Box.dir, harg, h1]; rfl
  | submit d a =>
    obtain ⟨_, hkey, harg, ha, hconfig, htok⟩ := hX
    obtain ⟨config, hc⟩ := Option.isSome_iff_exists.mp hconfig
    have hopts : d.opts ≠ [] := by
      intro e
      unfold Dir.get at hc
      rw [e] at hc; cases hc
    obtain ⟨d', h1, h2, h3⟩ := Spine.push_targets (s := behindOptions ps d (gap ++ cont)) H.spine (data := (Box.submit d a).node i)
      .Body (hf _ hcat) (simple_box _ i) hk rfl
    refine ⟨none, { behindOptions ps d (gap ++ cont) with doc := d' }, _, gap', ?_, rfl, by omega, hlen, hd2.symm,
      fun x hx => hb x (hg' x hx), h2, h3⟩
    have hne : d.arg ≠ [] := by
      rw [harg]
      intro e
      exact ha.key.1 (List.append_eq_nil_iff.mp (List.append_eq_nil_iff.mp (List.append_eq_nil_iff.mp e).1).1).1
    have hst : exerciseStatus (d.get (str! "status")) = ((d.get (str! "status")).bind (fromTable statuses)).getD .Unlisted := by
      cases hg : d.get (str! "status") with
      | none => rfl
      | some t => exact status_table t (M.ok.trim_get hg)
    have htok' : radarTokenizer (d.get (str! "radar-tokenizer")) =
        some (((d.get (str! "radar-tokenizer")).bind (fromTable tokenizers)).getD .None) ∧
        (((d.get (str! "radar-tokenizer")).bind (fromTable tokenizers)).getD .None = .None ↔ d.has (str! "radar-tokenizer") = false) := by
      cases hg : d.get (str! "radar-tokenizer") with
      | none => exact ⟨rfl, by simp [Dir.has, hg]⟩
      | some t =>
        obtain ⟨v, hv⟩ := Option.isSome_iff_exists.mp (htok t hg)
        obtain ⟨k1, k2⟩ := tokenizer_table hv (M.ok.trim_get hg)
        simp [Dir.has, hg, hv, k1, k2]
    have hskip : P.skipEmpty E.src { ps with cursor := ps.cursor.incrementBy 1 } = .ok () { ps with cursor := ps.cursor.incrementBy 1 } := by
      have hh := drop_incr H.here 1
      cases ho : d.opts with
      | nil => exact absurd ho hopts
      | cons o os =>
        have e : ((Box.submit d a).dir.lines i ++ (gap ++ cont)).drop 1 =
            indentLine (i + 3) (optionLine o) :: (os.map (fun o => indentLine (i + 3) (optionLine o)) ++ (gap ++ cont)) := by
          show (d.lines i ++ (gap ++ cont)).drop 1 = _
          unfold Dir.lines; rw [ho]; rfl
        rw [e] at hh
        unfold P.skipEmpty skipEmptyLines
        simp only
        rw [hh, countBlank, (option_indent (i + 3)).2]
        simp [LineCursor.incrementBy_add]
    rw [M.dispatch, show (Box.submit d a).dir.key = _ from hkey, dispatch_submit, hbody]
    simp only [Box.node, Dir.number, hc, Option.getD_some] at h1
    simp only [parseSubmit, bind, P.bind, hs.1, hs.2, hskip, Dir.args_some (show (Box.submit d a).dir.arg ≠ [] from hne), P.required, pure, P.pure, Dir.optionOf,
      joinWith]
    simp only [Box.dir, hc, htok'.1, harg, exercise_read ha, hst]
    have hmin : (if ((d.get (str! "radar-tokenizer")).bind (fromTable tokenizers)).getD .None = .None then none
        else (d.get (str! "radar_minimum_match_tokens")).bind (parseUint 32)) =
        (if d.has (str! "radar-tokenizer") then (d.get (str! "radar_minimum_match_tokens")).bind (parseUint 32) else none) := by
      by_cases hh : d.has (str! "radar-tokenizer") = true
      · rw [if_pos hh, if_neg (fun e => by rw [htok'.2.mp e] at hh; cases hh)]
      · rw [if_neg hh, if_pos (htok'.2.mpr (by simpa using hh))]
    simp only [P.pure]
    rw [hmin]
    simp only [Dir.has, Exercise.max] at h1 ⊢
    rw [h1]; rfl
  | figure d =>
    obtain ⟨d1, h1, h2, h3⟩ := Spine.push_targets (s := behindOptions ps d (gap ++ cont)) H.spine (data := (Box.figure d).node i)
      .Figure (hf _ hcat) (simple_box _ i) hk rfl
    obtain ⟨d', k1, k2, k3⟩ := Spine.add (s := { behindOptions ps d (gap ++ cont) with doc := d1 }) (nodes := [figureImage d]) h2
      (by intro n hn; obtain rfl := List.mem_singleton.mp hn; exact ⟨(boxFrame_body E (.figure d) i []).kids .Image (by decide), simple_image⟩)
      (congrArg Prod.snd h3)
    rw [pushAll_one] at k1
    refine ⟨none, { behindOptions ps d (gap ++ cont) with doc := d' }, _, gap', ?_, rfl, by omega, hlen, hd2.symm,
      fun x hx => hb x (hg' x hx), k2, k3.trans h3⟩
    have hal : (d.get (str! "align")).bind strToHorizontalAlignment = (d.get (str! "align")).bind (fromTable alignments) := by
      cases hg : d.get (str! "align") with
      | none => rfl
      | some t => exact alignment_table t (M.ok.trim_get hg)
    rw [M.dispatch, show (Box.figure d).dir.key = _ from hX.2.1, dispatch_figure, hbody]
    simp only [Box.node, Dir.length] at h1
    simp only [figureImage, Dir.length] at k1
    simp only [parseFigure, bind, P.bind, hs.1, hs.2, Dir.args_some (show (Box.figure d).dir.arg ≠ [] from hX.2.2), P.required, pure, P.pure,
      Dir.optionOf, List.flatten_cons, List.flatten_nil, List.append_nil]
    simp only [Box.dir, hal, h1, k1]; rfl

/-- A directive with blocks is opened, and gets the labels of the targets before it. -/
theorem AtL.box_targets {labels : List Str} {E : Env} {S : SectionData} {os : List Frame} {s : LoopState} {f : Frame} {fs : List Frame} {X : Box} {gap cont : List Str}
    {c i : Nat} (h0 : E.baseIndent = 0) (h : AtL labels E S os s (f :: fs) (X.dir.lines i ++ (gap ++ cont)) c) (hc : c ≤ 9)
    (hf : f.Body E i) (hX : X.Ok) (hap : X.apart = false) (hg : gap ≠ []) (hb : ∀ l ∈ gap, isBlank l = true) 
    (hcont : Fills i X cont) : Leads E S os s ({ boxFrame X i [] with extra := labels } :: f :: fs) (cont) 0 := by
  obtain ⟨adv, ps', k, gap', hres, hadv, hk, hk', hdrop, hgap, hsp, hnotes⟩ :=
    box_opens ⟨h.here, h.spine, by rw [h0]; exact hf.indent⟩ hX hap hg hb hcont hf.kids
  rw [h.pending] at hsp
  rw [h.secs] at hnotes
  have hd : X.dir.Ok := by cases X <;> exact hX.1
  have e : X.dir.lines i ++ (gap ++ cont) =
      indentLine i X.dir.marker :: (X.dir.opts.map (fun o => indentLine (i + 3) (optionLine o)) ++ (gap ++ cont)) := rfl
  rw [e] at h hk' hdrop
  obtain ⟨ts, hts, hts'⟩ := hf.table
  have hstep := step_moved (h.stands hc) hts hf.notEnd ((hts' _ (noBreak_dir hd i)).trans (directive_transition E hd i).1) hres (stack := s.stack ++ [boxState X]) rfl
    hadv hk hk'
  rw [hdrop] at hstep
  have hat := drop_incr h.here k
  rw [hdrop] at hat
  have h2 : Leads E S os s ({ boxFrame X i [] with extra := labels } :: f :: fs) (gap' ++ cont) 0 := by
    refine ⟨_, .step hstep, ⟨?_, hsp, ?_, Nat.le_refl _, hnotes⟩⟩
    · exact hat
    · rw [h.stack_cons]; simp [stackFor]
  obtain ⟨s1, k1, k2⟩ := h2
  exact k1.leads (k2.blanks (f := { boxFrame X i [] with extra := labels }) (boxFrame_body E X i []).readable hgap)

/-- A directive with blocks is opened. -/
theorem AtL.box {E : Env} {S : SectionData} {os : List Frame} {s : LoopState} {f : Frame} {fs : List Frame} {X : Box} {gap cont : List Str}
    {c i : Nat} (h0 : E.baseIndent = 0) (h : At E S os s (f :: fs) (X.dir.lines i ++ (gap ++ cont)) c) (hc : c ≤ 9)
    (hf : f.Body E i) (hX : X.Ok) (hap : X.apart = false) (hg : gap ≠ []) (hb : ∀ l ∈ gap, isBlank l = true) 
    (hcont : Fills i X cont) : Leads E S os s (boxFrame X i [] :: f :: fs) (cont) 0 :=
  AtL.box_targets h0 h hc hf hX hap hg hb hcont

theorem notes_table : ∀ x ∈ notes, standardAdmonition x.1 = some x.2 := by decide

theorem dispatch_note (E : Env) {name : Str} {v : AdmonitionType} (h : fromTable notes name = some v) (b k : Nat) (e : Bool) :
    dispatchDirective E name b k e = parseStandardAdmonition E v b k e := by
  have := notes_table _ (fromTable_mem h)
  unfold dispatchDirective
  rw [this]

/-- The content of a directive is parsed by a parser of its own. -/
theorem AtL.apart {E : Env} {S : SectionData} {os : List Frame} {s : LoopState} {f : Frame} {fs : List Frame} {X : Box}
    {Q : List Frame → Prop} {gap C rest : List Str} {c i m : Nat} (h0 : E.baseIndent = 0) (hN : E.nested = parserOf (m + 1))
    (h : At E S os s (f :: fs) (X.dir.lines i ++ (gap ++ (C ++ rest))) c) (hc : c ≤ 9)
    (hf : f.Body E i) (hX : X.Ok) (hap : X.apart = true) (hg : gap ≠ []) (hb : ∀ l ∈ gap, isBlank l = true)
    (hC : ∃ l C', C = l :: C' ∧ isBlank l = false ∧ indentOf l = i + 3) (hCk : ∀ l ∈ C, isBlank l = true ∨ i + 3 ≤ indentOf l)
    (hr : Low (i + 1) rest) (hn : roundsBound (textSize (gap ++ C)) ≤ m + 1)
    (hrun : ∀ (g : List Str) (d : DocTree) (line level : Nat), (∀ l ∈ g, isBlank l = true) →
      Spine d.tree (boxFrame X i [] :: f :: fs ++ os) → d.notes = (S, []) →
      ∃ frames, Q frames ∧
        Leads ⟨g ++ C.map (·.drop (i + 3)), i + 3, parserOf m⟩ S (f :: fs ++ os) (LoopState.init d line (boxState X) level) frames [] 0) :
    ∃ frames, Q frames ∧ Leads E S os s (frames ++ f :: fs) rest 0 := by
  cases X with
  | admonition d => cases hap
  | only d => cases hap
  | unknown d => cases hap
  | poi d => cases hap
  | submit d a => cases hap
  | figure d => cases hap
  | note d =>
    obtain ⟨hd, hv, harg⟩ := hX
    obtain ⟨v, hv⟩ := Option.isSome_iff_exists.mp hv
    have H : Meets E s.ps f (fs ++ os) i (d.lines i ++ (gap ++ (C ++ rest))) :=
      ⟨h.here, h.spine, by rw [h0]; exact hf.indent⟩
    have M : Enters E s.ps f (fs ++ os) i d (gap ++ (C ++ rest)) := ⟨H, hd, .gap hg hb⟩
    have hne : C ≠ [] := by obtain ⟨l, C', rfl, _⟩ := hC; simp
    have hbody : bodyOf E s.ps i d = i + 3 := by
      obtain ⟨l, C', rfl, hl, hi⟩ := hC
      unfold bodyOf
      rw [subsequent_content H.here hb hl hi (fun _ => rfl)]; rfl
    obtain ⟨gap', hg', hsrc, hcount⟩ := behind_gap_suffix hg H.here
    have hread : P.indentedBlock E false (some (i + 3)) (some (i + 3)) false (behindOptions s.ps d (gap ++ (C ++ rest))) =
        .ok (gap'.map (·.drop (i + 3)) ++ C.map (·.drop (i + 3)), (gap' ++ C).length) (behindOptions s.ps d (gap ++ (C ++ rest))) := by
      have := content_reads (E := E) (first := some (i + 3)) (s := behindOptions s.ps d (gap ++ (C ++ rest))) (after := [])
        (k := i + 3) (by omega) hsrc (fun l hl => hb l (hg'.subset hl)) hne hCk (by simp) (hr.mono (by omega)) (.inr rfl)
      simpa using this
    obtain ⟨d', h1, h2, h3⟩ := Spine.push (s := behindOptions s.ps d (gap ++ (C ++ rest))) H.spine
      (data := (Box.note d).node i) .Admonition (hf.kids .Admonition (by decide)) (simple_box _ i) rfl rfl h.calm
    let E' : Env := ⟨gap'.map (·.drop (i + 3)) ++ C.map (·.drop (i + 3)), i + 3, parserOf m⟩
    have hlenG : textSize (gap'.map (·.drop (i + 3))) ≤ textSize gap := by
      have h1 := textSize_map_le (f := (·.drop (i + 3))) (fun l => by simp) gap'
      obtain ⟨x, rfl⟩ := hg'
      rw [textSize_append]; omega
    have hsize : textSize E'.src ≤ textSize (gap ++ C) := by
      show textSize (gap'.map (·.drop (i + 3)) ++ C.map (·.drop (i + 3))) ≤ _
      rw [textSize_append, textSize_append]
      have := textSize_map_le (f := (·.drop (i + 3))) (fun l => by simp) C
      have := hlenG
      omega
    obtain ⟨frames, hQ, hrun⟩ := hrun (gap'.map (·.drop (i + 3))) d' (behindOptions s.ps d (gap ++ (C ++ rest))).cursor.sumTotal
      s.ps.sectionLevel (fun l hl => by obtain ⟨z, hz, rfl⟩ := List.mem_map.mp hl; exact blank_drop (hb z (hg'.subset hz)) _) h2
      (h3.trans h.secs)
    obtain ⟨d2, k1, k2, k3⟩ := nested_run (E := E') (m := m) rfl (rounds_part hn hsize) (st := .Admonition) rfl h2 hrun
    have hres : bodyDirective E (directiveMatch d i) s.ps = .ok (.push (frames.map (·.st)).reverse, some (gap' ++ C).length)
        { behindOptions s.ps d (gap ++ (C ++ rest)) with doc := d2 } := by
      have hs := M.scan
      rw [hbody] at hs
      rw [M.dispatch, show d.key = _ from rfl, dispatch_note E hv, hbody]
      simp only [Box.node, hv, Option.getD_some] at h1
      have k1' : E.nested (gap'.map (·.drop (i + 3)) ++ C.map (·.drop (i + 3))) d' (i + 3)
          (behindOptions s.ps d (gap ++ (C ++ rest))).cursor.sumTotal .Admonition s.ps.sectionLevel =
          .ok (.eof d2 (frames.map (·.st)).reverse) := by rw [hN]; exact k1
      simp only [parseStandardAdmonition, bind, P.bind, hs.1, hs.2, hread, Dir.args_none harg, Dir.optionOf, pure, P.pure]
      rw [h1]
      simp only [P.nest, Option.getD_none, List.nil_append]
      have e : ({ behindOptions s.ps d (gap ++ (C ++ rest)) with doc := d' } : PS).sectionLevel = s.ps.sectionLevel := rfl
      rw [e, k1']
    have e : (Box.note d).dir.lines i ++ (gap ++ (C ++ rest)) =
        indentLine i d.marker :: (d.opts.map (fun o => indentLine (i + 3) (optionLine o)) ++ (gap ++ (C ++ rest))) := rfl
    have hk : 1 + d.optionCount (gap ++ (C ++ rest)) + (gap' ++ C).length = (d.lines i ++ (gap ++ C)).length := by
      simp only [List.length_append] at hcount ⊢; omega
    have hdrop : ((Box.note d).dir.lines i ++ (gap ++ (C ++ rest))).drop (d.lines i ++ (gap ++ C)).length = rest := by
      have : (Box.note d).dir.lines i ++ (gap ++ (C ++ rest)) = (d.lines i ++ (gap ++ C)) ++ rest := by simp [Box.dir]
      rw [this, List.drop_left]
    have hle : (d.lines i ++ (gap ++ C)).length ≤ ((Box.note d).dir.lines i ++ (gap ++ (C ++ rest))).length := by
      simp only [List.length_append, Box.dir]; omega
    rw [e] at h hdrop hle
    obtain ⟨ts, hts, hts'⟩ := hf.table
    have hstep := step_moved (h.stands hc) hts hf.notEnd ((hts' _ (noBreak_dir hd i)).trans (directive_transition E hd i).1) hres
      (stack := s.stack ++ (frames.map (·.st)).reverse) rfl (k := (d.lines i ++ (gap ++ C)).length) (by
        show (s.ps.cursor.incrementBy _).incrementBy _ = _
        rw [LineCursor.incrementBy_add, hk]) (by rw [← hk]; omega) hle
    rw [hdrop] at hstep
    have hat := drop_incr h.here (d.lines i ++ (gap ++ C)).length
    rw [hdrop] at hat
    refine ⟨frames, hQ, _, .step hstep, ⟨hat, ?_, ?_, Nat.le_refl _, k3⟩⟩
    · rw [List.append_assoc]; exact k2
    · rw [h.stack_cons]
      simp [stackFor]

end Rustla
