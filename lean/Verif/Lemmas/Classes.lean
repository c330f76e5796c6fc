import Verif.Lemmas.Boxes
/-! # The directive `class` -/
namespace Rustla
open Spec

theorem dispatch_class (E : Env) (b k : Nat) (e : Bool) : dispatchDirective E (str! "class") b k e = parseClass E b k e := rfl

/-- The open node of a class with some blocks. -/
abbrev classFrame (d : Dir) (i : Nat) (ss : List Shape) : Frame := ⟨.Body, .Class (i + 3) [d.arg], ss, []⟩

theorem simple_class : Simple .Class := ⟨by decide, by decide, by decide, by decide, by decide⟩

theorem classFrame_body (E : Env) (d : Dir) (i : Nat) (ss : List Shape) : (classFrame d i ss).Body E (i + 3) :=
  ⟨.of rfl, by simp [State.readable], rfl, fun _ => takes_body rfl (by decide)⟩

theorem classFrame_add (d : Dir) (i : Nat) (a ss : List Shape) : (classFrame d i a).add ss = classFrame d i (a ++ ss) := by simp [Frame.add]

/-- The content of the directive is parsed by a parser of its own, but the lines are not passed over. -/
theorem AtL.classed {E : Env} {S : SectionData} {os : List Frame} {s : LoopState} {f : Frame} {fs : List Frame} {d : Dir}
    {Q : List Frame → Prop} {gap C rest : List Str} {c i m : Nat} (h0 : E.baseIndent = 0) (hN : E.nested = parserOf (m + 1))
    (h : At E S os s (f :: fs) (d.lines i ++ (gap ++ (C ++ rest))) c) (hc : c ≤ 9)
    (hf : f.Body E i) (hd : d.Ok) (hkey : d.key = str! "class") (harg : d.arg ≠ []) (hopts : d.opts = []) (hg : gap ≠ [])
    (hb : ∀ l ∈ gap, isBlank l = true)
    (hC : ∃ l C', C = l :: C' ∧ isBlank l = false ∧ indentOf l = i + 3) (hCk : ∀ l ∈ C, isBlank l = true ∨ i + 3 ≤ indentOf l)
    (hr : Low (i + 1) rest) (hn : roundsBound (textSize (gap ++ C)) ≤ m + 1)
    (hrun : ∀ (g : List Str) (d' : DocTree) (line level : Nat), (∀ l ∈ g, isBlank l = true) →
      Spine d'.tree (classFrame d i [] :: f :: fs ++ os) → d'.notes = (S, []) →
      ∃ frames, Q frames ∧
        Leads ⟨g ++ C.map (·.drop (i + 3)), i + 3, parserOf m⟩ S (f :: fs ++ os) (LoopState.init d' line .Body level) frames [] 0) :
    ∃ frames, Q frames ∧ Leads E S os s (frames ++ f :: fs) (gap ++ (C ++ rest)) 0 := by
  have H : Meets E s.ps f (fs ++ os) i (d.lines i ++ (gap ++ (C ++ rest))) :=
    ⟨h.here, h.spine, by rw [h0]; exact hf.indent⟩
  have M : Enters E s.ps f (fs ++ os) i d (gap ++ (C ++ rest)) := ⟨H, hd, .gap hg hb⟩
  have hne : C ≠ [] := by obtain ⟨l, C', rfl, _⟩ := hC; simp
  have hbody : bodyOf E s.ps i d = i + 3 := by
    obtain ⟨l, C', rfl, hl, hi⟩ := hC
    unfold bodyOf
    rw [subsequent_content H.here hb hl hi (fun _ => rfl)]; rfl
  have hdl : d.lines i = [indentLine i d.marker] := by simp [Dir.lines, hopts]
  let s1 : PS := { s.ps with cursor := s.ps.cursor.incrementBy 1 }
  have hsrc : E.src.drop s1.cursor.relativeOffset = gap ++ (C ++ rest) := by
    show E.src.drop (s.ps.cursor.incrementBy 1).relativeOffset = _
    rw [drop_incr H.here 1, hdl]; rfl
  obtain ⟨d', h1, h2, h3⟩ := Spine.push (s := s1) H.spine
    (data := .Class (i + 3) [d.arg]) .Body (hf.kids .Class (by decide)) simple_class rfl rfl h.calm
  have hread : P.indentedBlock E false (some (i + 3)) none false { s1 with doc := d' } =
      .ok (gap.map (·.drop (i + 3)) ++ C.map (·.drop (i + 3)), (gap ++ C).length) { s1 with doc := d' } := by
    have := content_reads (E := E) (first := none) (s := { s1 with doc := d' }) (after := [])
      (k := i + 3) (by omega) hsrc hb hne hCk (by simp) (hr.mono (by omega)) (.inl rfl)
    simpa using this
  let E' : Env := ⟨gap.map (·.drop (i + 3)) ++ C.map (·.drop (i + 3)), i + 3, parserOf m⟩
  have hsize : textSize E'.src ≤ textSize (gap ++ C) := by
    show textSize (gap.map (·.drop (i + 3)) ++ C.map (·.drop (i + 3))) ≤ _
    rw [← List.map_append]
    exact textSize_map_le (fun l => by simp) _
  obtain ⟨frames, hQ, hrun⟩ := hrun (gap.map (·.drop (i + 3))) d' s1.cursor.sumTotal
    s.ps.sectionLevel (fun l hl => by obtain ⟨z, hz, rfl⟩ := List.mem_map.mp hl; exact blank_drop (hb z hz) _) h2
    (h3.trans h.secs)
  obtain ⟨d2, k1, k2, k3⟩ := nested_run (E := E') (m := m) rfl (rounds_part hn hsize) (st := .Body) rfl h2 hrun
  have hres : bodyDirective E (directiveMatch d i) s.ps = .ok (.push (frames.map (·.st)).reverse, none) { s1 with doc := d2 } := by
    have hs := M.scan
    rw [hbody] at hs
    rw [M.dispatch, hkey, dispatch_class, hbody]
    have k1' : E.nested (gap.map (·.drop (i + 3)) ++ C.map (·.drop (i + 3))) d' (i + 3) s1.cursor.sumTotal .Body s.ps.sectionLevel =
        .ok (.eof d2 (frames.map (·.st)).reverse) := by rw [hN]; exact k1
    have hfil : [d.arg].filter (fun s => !s.isEmpty) = [d.arg] := by simp [harg]
    have h1' : P.pushFocus (.Class (i + 3) [d.arg]) { s.ps with cursor := s.ps.cursor.incrementBy 1 } = .ok () { s1 with doc := d' } := h1
    simp only [parseClass, bind, P.bind, hs.1, Dir.args_some harg, P.required, pure, P.pure, hfil, h1', hread, P.nest]
    have e : ({ s1 with doc := d' } : PS).sectionLevel = s.ps.sectionLevel := rfl
    rw [e, k1']
  have e : d.lines i ++ (gap ++ (C ++ rest)) = indentLine i d.marker :: (gap ++ (C ++ rest)) := by rw [hdl]; rfl
  rw [e] at h
  obtain ⟨ts, hts, hts'⟩ := hf.table
  have hstep := step_moved (h.stands hc) hts hf.notEnd ((hts' _ (noBreak_dir hd i)).trans (directive_transition E hd i).1) hres
    (stack := s.stack ++ (frames.map (·.st)).reverse) rfl (k := 1) rfl (by omega) (by simp)
  have hat := drop_incr h.here 1
  refine ⟨frames, hQ, _, .step hstep, ⟨hat, ?_, ?_, Nat.le_refl _, k3⟩⟩
  · rw [List.append_assoc]; exact k2
  · rw [h.stack_cons]
    simp [stackFor]

end Rustla
