import Verif.Spec.Bare
import Verif.Lemmas.Unwind
/-! # Directives without content -/
namespace Rustla
open Spec

/-- The open node of a directive whose content has some indentation. -/
abbrev bareFrame (X : Box) (j : Nat) : Frame := ⟨boxState X, X.bareNode j, X.kids.map (.node · []), []⟩

theorem bareFrame_body (E : Env) {X : Box} (hX : X.bare) (j : Nat) : (bareFrame X j).Body E j := by
  cases X with
  | unknown d => exact ⟨.of rfl, by simp [State.readable, boxState], rfl, fun _ => takes_body rfl (by decide)⟩
  | admonition d => exact ⟨.of rfl, by simp [State.readable, boxState], rfl, fun _ => takes_body rfl (by decide)⟩
  | poi d => exact ⟨.columns E, by simp [State.readable, boxState], rfl, fun _ => takes_body rfl (by decide)⟩
  | figure d => exact ⟨.of rfl, by simp [State.readable, boxState], rfl, fun _ => takes_body rfl (by decide)⟩
  | _ => exact hX.elim

theorem Spec.Dir.get_nil {d : Dir} (ho : d.opts = []) (k : Str) : d.get k = none := by simp [Dir.get, ho]

/-- What the parser of the directive does. -/
theorem bare_opens {E : Env} {ps : PS} {f : Frame} {fs : List Frame} {X : Box} {i j : Nat} {R : List Str}
    (H : Meets E ps f fs i (X.dir.lines i ++ R)) (hX : X.Ok) (hbare : X.bare) (ho : X.dir.opts = []) (hR : Stops R) (hbody : bodyOf E ps i X.dir = j)
    (hf : ∀ k : Kind, .Body ∈ k.categories → childIsAllowed f.data.kind k = .ok true) :
    ∃ ps', bodyDirective E (directiveMatch X.dir i) ps = .ok (.push [boxState X], none) ps' ∧ ps'.cursor = ps.cursor.incrementBy 1 ∧
      Spine ps'.doc.tree ({ bareFrame X j with extra := ps.doc.hyperref.accumulated } :: f :: fs) ∧ ps'.doc.notes = (ps.doc.notes.1, []) := by
  have hd : X.dir.Ok := by cases X <;> exact hX.1
  have M : Enters E ps f fs i X.dir R := ⟨H, hd, hR⟩
  have hcount : X.dir.optionCount R = 0 := by unfold Dir.optionCount; rw [if_pos ho]
  have hs := M.scan
  rw [hbody] at hs
  have hopts : ∀ k, X.dir.get k = none := fun k => Dir.get_nil ho k
  have hcur : (behindOptions ps X.dir R).cursor = ps.cursor.incrementBy 1 := by simp [behindOptions, hcount]
  have hkc : (X.bareNode j).kind.hasChildren = true ∧ .Body ∈ (X.bareNode j).kind.categories ∧ Simple (X.bareNode j).kind ∧
      (X.bareNode j).bodyIndent.isSome = true := by
    cases X with
    | unknown d => exact ⟨rfl, by simp [Box.bareNode, NodeType.kind, Kind.categories], ⟨by simp [Box.bareNode, NodeType.kind], by simp [Box.bareNode, NodeType.kind], by simp [Box.bareNode, NodeType.kind], by simp [Box.bareNode, NodeType.kind], by simp [Box.bareNode, NodeType.kind]⟩, rfl⟩
    | admonition d => exact ⟨rfl, by simp [Box.bareNode, NodeType.kind, Kind.categories], ⟨by simp [Box.bareNode, NodeType.kind], by simp [Box.bareNode, NodeType.kind], by simp [Box.bareNode, NodeType.kind], by simp [Box.bareNode, NodeType.kind], by simp [Box.bareNode, NodeType.kind]⟩, rfl⟩
    | poi d => exact ⟨rfl, by simp [Box.bareNode, NodeType.kind, Kind.categories], ⟨by simp [Box.bareNode, NodeType.kind], by simp [Box.bareNode, NodeType.kind], by simp [Box.bareNode, NodeType.kind], by simp [Box.bareNode, NodeType.kind], by simp [Box.bareNode, NodeType.kind]⟩, rfl⟩
    | figure d => exact ⟨rfl, by simp [Box.bareNode, NodeType.kind, Kind.categories], ⟨by simp [Box.bareNode, NodeType.kind], by simp [Box.bareNode, NodeType.kind], by simp [Box.bareNode, NodeType.kind], by simp [Box.bareNode, NodeType.kind], by simp [Box.bareNode, NodeType.kind]⟩, rfl⟩
    | _ => exact hbare.elim
  obtain ⟨d', h1, h2, h3⟩ := Spine.push_targets (s := behindOptions ps X.dir R) H.spine (data := X.bareNode j) (boxState X) (hf _ hkc.2.1) hkc.2.2.1 hkc.1 hkc.2.2.2
  cases X with
  | unknown d =>
    refine ⟨{ behindOptions ps d R with doc := d' }, ?_, hcur, h2, h3⟩
    have harg : Rustla.trim ((d.args.map (joinWith [' '])).getD []) = d.arg := by
      rcases hX.2.2.1 with e | e
      · rw [Dir.args_none e, e]; rfl
      · have hne : d.arg ≠ [] := by intro h; rw [h] at e; obtain ⟨⟨⟨c, hc, _⟩, _⟩, _⟩ := e; cases hc
        rw [Dir.args_some hne]
        exact e.trim
    have ho' : d.options.getD [] = [] := by rw [Dir.options_eq hX.2.2.2]; exact ho
    rw [M.dispatch, dispatch_unknown E (show (Box.unknown d).dir.key ∉ _ from hX.2.1), hbody]
    simp only [Box.bareNode, Box.dir] at h1
    simp only [parseUnknownDirective, bind, P.bind, hs.1, hs.2, pure, P.pure]
    simp only [Box.dir, harg, ho', h1]; rfl
  | admonition d =>
    refine ⟨{ behindOptions ps d R with doc := d' }, ?_, hcur, h2, h3⟩
    rw [M.dispatch, show (Box.admonition d).dir.key = _ from hX.2.1, dispatch_admonition, hbody]
    simp only [Box.bareNode, Box.dir] at h1
    simp only [parseGenericAdmonition, bind, P.bind, hs.1, hs.2, Dir.args_some (show (Box.admonition d).dir.arg ≠ [] from hX.2.2), P.required, pure, P.pure,
      Dir.optionOf, joinWith, hopts]
    simp only [Box.dir, h1]; rfl
  | poi d =>
    refine ⟨{ behindOptions ps d R with doc := d' }, ?_, hcur, h2, h3⟩
    have harg : (d.args.map (joinWith [' '])).getD [] = d.arg := by
      by_cases e : d.arg = []
      · rw [Dir.args_none e, e]; rfl
      · rw [Dir.args_some e]; rfl
    rw [M.dispatch, show (Box.poi d).dir.key = _ from hX.2, dispatch_poi, hbody]
    simp only [Box.bareNode, Box.dir] at h1
    simp only [parsePointOfInterest, bind, P.bind, hs.1, hs.2, pure, P.pure, Dir.optionOf, hopts, Option.bind_none]
    simp only [Box.dir, harg, h1]; rfl
  | figure d =>
    obtain ⟨d2, k1, k2, k3⟩ := Spine.add (s := { behindOptions ps d R with doc := d' }) (nodes := [figureImage d]) h2
      (by intro n hn; obtain rfl := List.mem_singleton.mp hn
          exact ⟨(bareFrame_body E (X := .figure d) trivial j).kids .Image (by decide), simple_image⟩)
      (congrArg Prod.snd h3)
    rw [pushAll_one] at k1
    refine ⟨{ behindOptions ps d R with doc := d2 }, ?_, hcur, k2, k3.trans h3⟩
    rw [M.dispatch, show (Box.figure d).dir.key = _ from hX.2.1, dispatch_figure, hbody]
    simp only [Box.bareNode, Box.dir] at h1
    have hg : ∀ k, d.get k = none := hopts
    simp only [figureImage, Dir.length, hg, Option.bind_none] at k1
    simp only [parseFigure, bind, P.bind, hs.1, hs.2, Dir.args_some (show (Box.figure d).dir.arg ≠ [] from hX.2.2), P.required, pure, P.pure,
      Dir.optionOf, List.flatten_cons, List.flatten_nil, List.append_nil, hopts, Option.bind_none, Option.map_none]
    simp only [Box.dir, h1, k1]; rfl
  | _ => exact hbare.elim

/-- A directive without options is opened, with some indentation of its content. -/
theorem AtL.opens_empty {E : Env} {S : SectionData} {os : List Frame} {s : LoopState} {f : Frame} {fs : List Frame} {X : Box} {R : List Str}
    {c i j : Nat} (h0 : E.baseIndent = 0) (h : At E S os s (f :: fs) (X.dir.lines i ++ R) c) (hc : c ≤ 9)
    (hf : f.Body E i) (hX : X.Ok) (hbare : X.bare) (ho : X.dir.opts = []) (hR : Stops R) (hbody : bodyOf E s.ps i X.dir = j) :
    Leads E S os s (bareFrame X j :: f :: fs) R 0 := by
  obtain ⟨ps', hres, hcur, hsp, hnotes⟩ := bare_opens ⟨h.here, h.spine, by rw [h0]; exact hf.indent⟩ hX hbare ho hR hbody hf.kids
  have hd : X.dir.Ok := by cases X <;> exact hX.1
  have hlines : X.dir.lines i = [indentLine i X.dir.marker] := by unfold Dir.lines; rw [ho]; rfl
  rw [h.pending] at hsp
  rw [h.secs] at hnotes
  rw [hlines, List.singleton_append] at h
  obtain ⟨ts, hts, hts'⟩ := hf.table
  have hstep := step_moved (h.stands hc) hts hf.notEnd ((hts' _ (noBreak_dir hd i)).trans (directive_transition E hd i).1) hres (stack := s.stack ++ [boxState X]) rfl
    (k := 1) (show ps'.cursor = _ from hcur) (by omega) (by simp)
  refine ⟨_, .step hstep, ⟨?_, ?_, ?_, Nat.le_refl _, ?_⟩⟩
  · exact drop_incr h.here 1
  · exact hsp
  · rw [h.stack_cons]
    cases R <;> simp [stackFor]
  · exact hnotes

/-- A directive takes the indentation of the next line that is not blank for that of its content. -/
theorem AtL.empty {E : Env} {S : SectionData} {os : List Frame} {s : LoopState} {f : Frame} {fs : List Frame} {X : Box} {gap ls : List Str} {l : Str}
    {c i j : Nat} (h0 : E.baseIndent = 0) (h : At E S os s (f :: fs) (X.dir.lines i ++ (gap ++ l :: ls)) c) (hc : c ≤ 9)
    (hf : f.Body E i) (hX : X.Ok) (hbare : X.bare) (ho : X.dir.opts = []) (hg : gap ≠ []) (hb : ∀ l ∈ gap, isBlank l = true) (hl : isBlank l = false)
    (hi : indentOf l = j) : Leads E S os s (bareFrame X j :: f :: fs) (l :: ls) 0 := by
  obtain ⟨s1, k1, k2⟩ := h.opens_empty h0 hc hf hX hbare ho (.gap hg hb) (j := j) (by
    unfold bodyOf
    rw [subsequent_content h.here hb hl hi (fun e => absurd ho e)]; rfl)
  exact k1.leads (k2.blanks (f := bareFrame X j) (bareFrame_body E hbare j).readable hb)

/-- A directive with nothing behind it takes the indentation of its argument for that of its content. -/
theorem AtL.empty_end {E : Env} {S : SectionData} {os : List Frame} {s : LoopState} {f : Frame} {fs : List Frame} {X : Box} {gap : List Str}
    {c i : Nat} (h0 : E.baseIndent = 0) (h : At E S os s (f :: fs) (X.dir.lines i ++ gap) c) (hc : c ≤ 9)
    (hf : f.Body E i) (hX : X.Ok) (hbare : X.bare) (ho : X.dir.opts = []) (hb : ∀ l ∈ gap, isBlank l = true) :
    Leads E S os s (bareFrame X (spaces i ++ X.dir.head).length :: f :: fs) [] 0 := by
  obtain ⟨s1, k1, k2⟩ := h.opens_empty h0 hc hf hX hbare ho (fun l hl => hb l (List.mem_of_mem_head? hl)) (j := (spaces i ++ X.dir.head).length) (by
    have hhere : E.src.drop s.ps.cursor.relativeOffset = X.dir.lines i ++ gap := h.here
    unfold bodyOf indentOnSubsequentLines
    have e : (X.dir.lines i ++ gap).drop 1 = gap ++ [] := by unfold Dir.lines; rw [ho]; simp
    rw [← List.drop_drop, hhere, e, find_blanks hb]; rfl)
  have k2' : At E S os s1 (bareFrame X (spaces i ++ X.dir.head).length :: f :: fs) (gap ++ []) 0 := by rw [List.append_nil]; exact k2
  exact k1.leads (k2'.blanks (f := bareFrame X _) (bareFrame_body E hbare _).readable hb)

end Rustla
