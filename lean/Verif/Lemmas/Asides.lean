import Verif.Lemmas.Boxes
/-! # Admonitions whose text starts behind the marker -/
namespace Rustla
open Spec

/-- The first line of the admonition as a directive. -/
def asideDir (name l : Str) : Dir := ⟨name, l, []⟩

theorem asideDir_ok {name l : Str} {g : List Str} (h : AsideOk name g) (hl : FirstLine l) : (asideDir name l).Ok :=
  ⟨h.named, .inr ⟨⟨hl.start, hl.oneLine⟩, hl.notField⟩, by simp [asideDir]⟩

theorem asideLines_cons {l : Str} (hl : TextLine l) (i : Nat) (name : Str) (ls : List Str) :
    asideLines i name (l :: ls) = (asideDir name l).lines i ++ ls.map (indentLine (i + 3)) := by
  have hne : l ≠ [] := by rintro rfl; obtain ⟨c, h, _⟩ := hl.start; cases h
  simp [asideLines, Dir.lines, asideDir, Dir.marker, behind, hne]

/-- The scanner takes all lines of the paragraph. -/
theorem aside_lines (k : Nat) {ls rest : List Str} (h : ∀ l ∈ ls, Snug l ∧ ¬ FieldMarked l) (hr : Stops rest) :
    argumentLines k (ls.map (indentLine k) ++ rest) = ls := by
  induction ls with
  | nil => exact hr.arguments k
  | cons l ls ih =>
    obtain ⟨hs, hf⟩ := h l (by simp)
    obtain ⟨c, t, e, hw⟩ := hs.1.cons
    have hi : indentOf (indentLine k l) = k := by
      rw [e]; exact indentOf_indented hw k
    have hm : reFieldMarker.isMatch l = false := by
      rw [e] at hf ⊢
      cases hm : reFieldMarker.isMatch (c :: t) with
      | false => rfl
      | true =>
        obtain ⟨m, hm⟩ := (Re.isMatch_iff _ _).mp hm
        rw [field_dead hw hf] at hm; cases hm
    have ht : Rustla.trim (indentLine k l) = l := by rw [trim_spaces, hs.trim]
    rw [List.map_cons, List.cons_append, argumentLines]
    simp only [hi, ne_eq, not_true_eq_false, if_false, ht, hs.1.not_blank, hm, Bool.or_self, Bool.false_eq_true]
    rw [ih fun x hx => h x (by simp [hx])]

theorem snug_front {l : Str} (h : Snug l) (k : Nat) : isBlank (indentLine k l) = false ∧ indentOf (indentLine k l) = k := by
  obtain ⟨c, t, e, hw⟩ := h.1.cons
  constructor
  · have := h.1.not_blank
    unfold isBlank at this ⊢
    rw [trim_spaces]; exact this
  · rw [e]; exact indentOf_indented hw k

/-- What follows the first line tells the indentation of the contents. -/
def AsideTells (i : Nat) (ls C : List Str) : Prop := ls ≠ [] ∨ ∃ y C', C = y :: C' ∧ isBlank y = false ∧ indentOf y = i + 3

/-- The contents of the admonition are parsed by a parser of their own, together with the text behind the marker. -/
theorem AtL.aside {E : Env} {S : SectionData} {os : List Frame} {s : LoopState} {f : Frame} {fs : List Frame} {name l : Str} {ls : List Str}
    {Q : List Frame → Prop} {gap C rest : List Str} {c i m : Nat} (h0 : E.baseIndent = 0) (hN : E.nested = parserOf (m + 1))
    (h : At E S os s (f :: fs) (asideLines i name (l :: ls) ++ (gap ++ (C ++ rest))) c) (hc : c ≤ 9)
    (hf : f.Body E i) (hok : AsideOk name (l :: ls)) (hl : FirstLine l) (hg : gap ≠ []) (hb : ∀ l ∈ gap, l = [])
    (hC : AsideTells i ls C) (hCk : ∀ l ∈ C, isBlank l = true ∨ i + 3 ≤ indentOf l)
    (hr : Low (i + 1) rest) (hn : roundsBound (textSize (l :: ls ++ (gap ++ C))) ≤ m + 1)
    (hrun : ∀ (d : DocTree) (line level : Nat),
      Spine d.tree (boxFrame (.note ⟨name, [], []⟩) i [] :: f :: fs ++ os) → d.notes = (S, []) →
      ∃ frames, Q frames ∧ Leads ⟨l :: ls ++ (gap ++ C.map (·.drop (i + 3))), i + 3, parserOf m⟩ S (f :: fs ++ os)
        (LoopState.init d line .Admonition level) frames [] 0) :
    ∃ frames, Q frames ∧ Leads E S os s (frames ++ f :: fs) rest 0 := by
  obtain ⟨v, hv⟩ := Option.isSome_iff_exists.mp hok.known
  have hlines := hok.lines
  simp only [List.tail_cons] at hlines
  have hb' : ∀ l ∈ gap, isBlank l = true := fun x hx => by rw [hb x hx]; rfl
  have hd := asideDir_ok hok hl
  have hstops : Stops (gap ++ (C ++ rest)) := .gap hg hb'
  rw [asideLines_cons hl.toTextLine, List.append_assoc] at h
  generalize hD : asideDir name l = d at h hd
  have hname : d.name = name := by rw [← hD]; rfl
  have harg : d.arg = l := by rw [← hD]; rfl
  have hopts : d.opts = [] := by rw [← hD]; rfl
  have hin : Inset l := ⟨hl.start, hl.oneLine⟩
  have hblank : isBlank d.arg = false := by rw [harg]; exact hin.not_blank
  have H : Meets E s.ps f (fs ++ os) i (d.lines i ++ (ls.map (indentLine (i + 3)) ++ (gap ++ (C ++ rest)))) :=
    ⟨h.here, h.spine, by rw [h0]; exact hf.indent⟩
  have hdl : d.lines i = [indentLine i d.marker] := by simp [Dir.lines, hopts]
  have hbody : bodyOf E s.ps i d = i + 3 := by
    unfold bodyOf indentOnSubsequentLines
    rw [← List.drop_drop, H.here, hdl]
    show (((ls.map (indentLine (i + 3)) ++ (gap ++ (C ++ rest))).find? fun l => !isBlank l).map indentOf).getD _ = _
    cases ls with
    | cons x ls =>
      obtain ⟨h1, h2⟩ := snug_front (hlines x (by simp)).1 (i + 3)
      simp [h1, h2]
    | nil =>
      rcases hC with e | ⟨y, C', rfl, h1, h2⟩
      · exact absurd rfl e
      · rw [List.map_nil, List.nil_append, find_blanks hb']
        simp [h1, h2]
  have hscan : P.arguments E (i + 3) (spaces i ++ d.head).length false s.ps =
      .ok (some (l :: ls)) { s.ps with cursor := s.ps.cursor.incrementBy (ls.length + 1) } := by
    have hmark : (indentLine i d.marker).drop (spaces i ++ d.head).length = d.arg := by
      rw [d.marker_eq]
      unfold indentLine
      rw [← List.append_assoc, List.drop_append_of_le_length (by simp), List.drop_eq_nil_of_le (by simp), List.nil_append]
    have hfm : reFieldMarker.isMatch l = false := by
      obtain ⟨c, t, e, hw⟩ := hin.cons
      have hnf := hl.notField
      rw [e] at hnf ⊢
      cases hm : reFieldMarker.isMatch (c :: t) with
      | false => rfl
      | true =>
        obtain ⟨m, hm⟩ := (Re.isMatch_iff _ _).mp hm
        rw [field_dead hw hnf] at hm; cases hm
    have hhere := H.here
    rw [hdl] at hhere
    unfold P.arguments scanDirectiveArguments
    rw [harg] at hmark hblank
    simp only [Bool.false_eq_true, if_false, hhere, List.cons_append, List.nil_append, hmark, hblank, hfm, Bool.or_self,
      aside_lines (i + 3) hlines hstops, List.isEmpty_cons, List.length_cons]
  let s1 : PS := { s.ps with cursor := s.ps.cursor.incrementBy (ls.length + 1) }
  have hs1 : E.src.drop s1.cursor.relativeOffset = gap ++ (C ++ rest) := by
    show E.src.drop (s.ps.cursor.incrementBy (ls.length + 1)).relativeOffset = _
    rw [drop_incr H.here, hdl]
    simp
  have hoptions : P.options E (i + 3) s1 = .ok none s1 := by
    unfold P.options scanDirectiveOptions
    simp only [hs1, hstops.options (i + 3), List.isEmpty_nil, if_true]
  have hread : P.indentedBlock E false (some (i + 3)) (some (i + 3)) false s1 =
      .ok (gap ++ C.map (·.drop (i + 3)), (gap ++ C).length) s1 := by
    cases gap with
    | nil => exact absurd rfl hg
    | cons g gap =>
      have := indented_reads (E := E) (s := s1) (k := i + 3) (l := g) (ls := gap ++ C) (rest := rest) (first := some (i + 3)) (by omega)
        (by rw [hs1]; simp) (fun x hx => by
          rcases List.mem_append.mp hx with hx | hx
          · exact .inl (hb' x (by simp [hx]))
          · exact hCk x hx) (hr.mono (by omega)) (.inr rfl)
      rw [this]
      have hmap : (g :: gap).map (·.drop (i + 3)) = g :: gap := by
        conv => rhs; rw [← List.map_id (g :: gap)]
        exact List.map_congr_left fun x hx => by rw [hb x hx]; simp
      have e : (g :: (gap ++ C)).map (·.drop (i + 3)) = g :: gap ++ C.map (·.drop (i + 3)) := by
        rw [← List.cons_append, List.map_append, hmap]
      rw [e]; rfl
  obtain ⟨d', h1, h2, h3⟩ := Spine.push (s := s1) H.spine
    (data := (Box.note ⟨name, [], []⟩).node i) .Admonition (hf.kids .Admonition (by decide)) (simple_box _ i) rfl rfl h.calm
  let E' : Env := ⟨l :: ls ++ (gap ++ C.map (·.drop (i + 3))), i + 3, parserOf m⟩
  have hsize : textSize E'.src ≤ textSize (l :: ls ++ (gap ++ C)) := by
    show textSize (l :: ls ++ (gap ++ C.map (·.drop (i + 3)))) ≤ _
    have := textSize_map_le (f := (·.drop (i + 3))) (fun l => by simp) C
    simp only [textSize_append]
    omega
  obtain ⟨frames, hQ, hrun⟩ := hrun d' s1.cursor.sumTotal s.ps.sectionLevel h2 (h3.trans h.secs)
  obtain ⟨d2, k1, k2, k3⟩ := nested_run (E := E') (m := m) rfl (rounds_part hn hsize) (st := .Admonition) rfl h2 hrun
  have hres : bodyDirective E (directiveMatch d i) s.ps = .ok (.push (frames.map (·.st)).reverse, some (gap ++ C).length)
      { s1 with doc := d2 } := by
    rw [directive_enters rfl H.here (by show s.ps.doc.tree.node.data.bodyIndent = _; rw [H.spine.data]; exact H.indent)
      (b := bodyOf E s.ps i d) rfl, dirName_label hd.name, hname, dispatch_note E hv, hbody, hblank]
    have h1' : P.pushFocus (.Admonition (i + 3) none none v) s1 = .ok () { s1 with doc := d' } := by
      have : (Box.note ⟨name, [], []⟩).node i = .Admonition (i + 3) none none v := by
        simp only [Box.node, Dir.key, hv, Option.getD_some]; rfl
      rw [← this]; exact h1
    have k1' : E.nested (l :: ls ++ (gap ++ C.map (·.drop (i + 3)))) d' (i + 3) s1.cursor.sumTotal .Admonition s.ps.sectionLevel =
        .ok (.eof d2 (frames.map (·.st)).reverse) := by rw [hN]; exact k1
    have hoptions' : P.options E (i + 3) { s.ps with cursor := s.ps.cursor.incrementBy (ls.length + 1) } = .ok none s1 := hoptions
    have e0 : ∀ key, optionOf none key = none := fun _ => rfl
    simp only [parseStandardAdmonition, bind, P.bind, hscan, hoptions', hread, pure, P.pure, e0, h1', P.nest, Option.getD_some]
    have e : ({ s1 with doc := d' } : PS).sectionLevel = s.ps.sectionLevel := rfl
    rw [e, k1']
  have hk : ls.length + 1 + (gap ++ C).length = (d.lines i ++ (ls.map (indentLine (i + 3)) ++ (gap ++ C))).length := by
    rw [hdl]; simp; omega
  have hall : d.lines i ++ (ls.map (indentLine (i + 3)) ++ (gap ++ (C ++ rest))) =
      (d.lines i ++ (ls.map (indentLine (i + 3)) ++ (gap ++ C))) ++ rest := by simp
  have hdrop : (d.lines i ++ (ls.map (indentLine (i + 3)) ++ (gap ++ (C ++ rest)))).drop
      (d.lines i ++ (ls.map (indentLine (i + 3)) ++ (gap ++ C))).length = rest := by
    rw [hall, List.drop_left]
  have hle : (d.lines i ++ (ls.map (indentLine (i + 3)) ++ (gap ++ C))).length ≤
      (d.lines i ++ (ls.map (indentLine (i + 3)) ++ (gap ++ (C ++ rest)))).length := by
    rw [hall]; simp
  have e : d.lines i ++ (ls.map (indentLine (i + 3)) ++ (gap ++ (C ++ rest))) =
      indentLine i d.marker :: (ls.map (indentLine (i + 3)) ++ (gap ++ (C ++ rest))) := by rw [hdl]; rfl
  rw [e] at h hdrop hle
  obtain ⟨ts, hts, hts'⟩ := hf.table
  have hstep := step_moved (h.stands hc) hts hf.notEnd ((hts' _ (noBreak_dir hd i)).trans (directive_transition E hd i).1) hres
    (stack := s.stack ++ (frames.map (·.st)).reverse) rfl (k := (d.lines i ++ (ls.map (indentLine (i + 3)) ++ (gap ++ C))).length) (by
      show (s.ps.cursor.incrementBy _).incrementBy _ = _
      rw [LineCursor.incrementBy_add, hk]) (by rw [← hk]; omega) hle
  rw [hdrop] at hstep
  have hat := drop_incr h.here (d.lines i ++ (ls.map (indentLine (i + 3)) ++ (gap ++ C))).length
  rw [hdrop] at hat
  refine ⟨frames, hQ, _, .step hstep, ⟨hat, ?_, ?_, Nat.le_refl _, k3⟩⟩
  · rw [List.append_assoc]; exact k2
  · rw [h.stack_cons]
    simp [stackFor]

end Rustla
