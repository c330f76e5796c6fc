import Verif.Lemmas.Runs
import Verif.Lemmas.Back
/-! # Points of interest with columns -/
namespace Rustla
open Spec

/-- The line between columns is found. -/
theorem column_captures (k : Nat) : reAplusColBreak.captures (indentLine (k + 1) columnLine) = some ⟨spaces (k + 1) ++ columnLine, [], [(.g1, spaces (k + 1))]⟩ := by
  have h1 : First (.cap .g1 (Re.plus true (.cls isWs))) (spaces (k + 1) ++ columnLine) [] (columnLine, [(.g1, spaces (k + 1))]) :=
    .cap (.plus (by simp [spaces]) (fun x hx => by obtain rfl := List.eq_of_mem_replicate hx; decide) (by
      intro x hx; obtain rfl : ':' = x := by simpa [columnLine] using hx
      decide) [])
  have h2 := First.seq h1 (First.lit (w := columnLine) (s := []) (cs := [(.g1, spaces (k + 1))]))
  have := First.captures (w := spaces (k + 1) ++ columnLine) (s := []) (r := reAplusColBreak) (cs := [(.g1, spaces (k + 1))]) (by
    rw [List.append_nil]; exact h2)
  simpa [indentLine] using this

theorem front_column (k : Nat) : Front (k + 1) (indentLine (k + 1) columnLine) :=
  ⟨⟨':', str! ":newcol", rfl, by decide⟩, spaces_not_line⟩

theorem simple_column : Simple .AplusColBreak := ⟨by decide, by decide, by decide, by decide, by decide⟩

/-- A new column. -/
theorem AtL.column {E : Env} {S : SectionData} {os : List Frame} {s : LoopState} {f : Frame} {fs : List Frame} {rest : List Str} {c i : Nat}
    (h : At E S os s (f :: fs) (indentLine (i + 1) columnLine :: rest) c) (hc : c ≤ 9) (hst : f.st = .AplusMultiCol) (hkind : f.data.kind = .AplusPOI)
    (hind : f.data.bodyIndent = some (i + 1)) :
    Leads E S os s (f.add [.node .AplusColBreak []] :: fs) rest 0 := by
  have hsp := h.spine
  have hstands := h.stands hc
  generalize hz : s.ps.doc.tree = z at hsp
  have hsp0 : Spine s.ps.doc.tree (f :: fs ++ os) := h.spine
  have hback := atIndent_right (ps := s.ps) (f := f) (fs := fs ++ os) (by simpa using hsp0) hind
  cases hsp with
  | mk hl ha =>
    rename_i n cs path
    obtain ⟨d', n', p1, p2, p3, p4⟩ := P.push_ok (s := s.ps) (data := .AplusColBreak) (cs := cs) (by rw [hz]; exact hl.2.1)
      (by rw [hz]; show childIsAllowed n.data.kind _ = _; rw [hl.1, hkind]; rfl) simple_column (congrArg Prod.snd h.secs)
    have hres : colBreak ⟨spaces (i + 1) ++ columnLine, [], [(.g1, spaces (i + 1))]⟩ s.ps = .ok (.neither, some 1) { s.ps with doc := d' } := by
      show atIndent (spaces (i + 1)).length _ s.ps = _
      rw [List.length_replicate, hback]
      simp only [bind, P.bind, p1, pure, P.pure]
    have hb := blankLine_dead (front_column i).not_blank
    rw [hst] at hstands
    have hs : s.stack = (fs.map (·.st)).reverse ++ [.AplusMultiCol] := by rw [h.stack]; simp [stackFor, hst]
    have := step_moved hstands (ts := (reBlankLine, emptyLine) :: (reAplusColBreak, colBreak) :: bodyRest E) rfl (by simp)
      (by simp only [firstTransition, hb, column_captures]) hres (stack := (fs.map (·.st)).reverse ++ [.AplusMultiCol]) (by rw [hs]; rfl) (k := 1) rfl (by omega) (by simp)
    refine ⟨_, .step this, ⟨?_, ?_, ?_, Nat.le_refl _, p2.trans h.secs⟩⟩
    · have := drop_incr h.here 1
      rw [this]; rfl
    · show Spine d'.tree _
      rw [p4, hz]
      exact .mk (hl.add (ns := [n']) (by simp [shapesOf, p3])) ha
    · simp [Frame.add, hst]

theorem flow_front {x : Flow} (h : x.Ok) (i : Nat) : ∃ l ls, x.lines (i + 1) = l :: ls ∧ Front (i + 1) l := by
  cases x with
  | text g ps gap =>
    obtain ⟨⟨hg, hl, _⟩, _⟩ := h
    cases g with
    | nil => exact absurd rfl hg
    | cons l g => exact ⟨_, _, rfl, front_text hl.1.toTextLine _⟩
  | leaf L gap =>
    obtain ⟨l, ls, e, hl⟩ := leaf_front h.1 (i + 1)
    exact ⟨l, ls ++ gap, by simp [Flow.lines, e], hl⟩
  | column gap => exact ⟨_, _, rfl, front_column i⟩

theorem flows_low {xs : List Flow} (h : ∀ x ∈ xs, x.Ok) {i : Nat} {rest : List Str} (hr : Low (i + 2) rest) :
    Low (i + 2) (xs.flatMap (Flow.lines (i + 1)) ++ rest) := by
  cases xs with
  | nil => exact hr
  | cons x xs =>
    obtain ⟨l, ls, e, hl⟩ := flow_front (h x (by simp)) i
    rw [List.flatMap_cons, e]
    exact hl.low (by omega)

/-- The contents of a point of interest are read. -/
theorem AtL.flows {E : Env} {S : SectionData} {os : List Frame} {fs : List Frame} {rest : List Str} {i : Nat} (h0 : E.baseIndent = 0)
    (hr : Low (i + 2) rest) : ∀ {xs : List Flow} {s : LoopState} {f : Frame}, (∀ x ∈ xs, x.Ok) →
    At E S os s (f :: fs) (xs.flatMap (Flow.lines (i + 1)) ++ rest) 0 → f.Body E (i + 1) → f.st = .AplusMultiCol → f.data.kind = .AplusPOI →
    Leads E S os s (f.add (xs.flatMap (Flow.shapes (i + 1))) :: fs) rest 0
  | [], s, f, _, h, _, _, _ => by
    rw [List.flatMap_nil, Frame.add_nil]
    exact h.leads
  | x :: xs, s, f, hx, h, hf, hst, hk => by
    have hlow := flows_low (fun y hy => hx y (by simp [hy])) hr (xs := xs)
    have step : Leads E S os s (f.add (x.shapes (i + 1)) :: fs) (xs.flatMap (Flow.lines (i + 1)) ++ rest) 0 := by
      have hxo := hx x (by simp)
      rw [List.flatMap_cons, List.append_assoc] at h
      cases x with
      | text g ps gap =>
        obtain ⟨hp, hg, hb⟩ := hxo
        simp only [Flow.lines, List.append_assoc] at h
        obtain ⟨s1, k1, k2⟩ := h.paragraph (by omega) (by omega) hf hp (fun e => by rw [hst] at e; cases e) (ends_gap hb fun e => absurd e hg)
        exact k1.leads (k2.blanks (hf.add _).readable hb)
      | leaf L gap =>
        simp only [Flow.lines, List.append_assoc] at h
        exact h.leaf (by omega) (by omega) hf hxo.1 hxo.2 hlow
      | column gap =>
        simp only [Flow.lines, List.cons_append] at h
        obtain ⟨s1, k1, k2⟩ := h.column (by omega) hst hk hf.indent
        exact k1.leads (k2.blanks (hf.add _).readable hxo)
    obtain ⟨s1, k1, k2⟩ := step
    obtain ⟨s2, k3, k4⟩ := AtL.flows h0 hr (xs := xs) (fun y hy => hx y (by simp [hy])) k2 (hf.add _) hst hk
    rw [Frame.add_add] at k4
    exact ⟨s2, k1.trans k3, by rw [List.flatMap_cons]; exact k4⟩

/-- A point of interest with columns. -/
theorem AtL.columns {E : Env} {S : SectionData} {os : List Frame} {s : LoopState} {f : Frame} {fs : List Frame} {d : Dir} {gap rest : List Str} {xs : List Flow}
    {c i : Nat} (h0 : E.baseIndent = 0) (h : At E S os s (f :: fs) ((Part.columns d gap xs).lines i ++ rest) c) (hc : c ≤ 9) (hf : f.Body E i)
    (hX : (Part.columns d gap xs).Ok) (hr : Low (i + 1) rest) :
    Leads E S os s (boxFrame (.poi d) i (xs.flatMap (Flow.shapes (i + 3))) :: f :: fs) rest 0 := by
  obtain ⟨hd, hkey, hg, hb, hne, hx⟩ := hX
  have e1 : (Part.columns d gap xs).lines i ++ rest = (Box.poi d).dir.lines i ++ (gap ++ (xs.flatMap (Flow.lines (i + 3)) ++ rest)) := by
    simp [Part.lines, Box.dir]
  rw [e1] at h
  have hfill : Fills i (.poi d) (xs.flatMap (Flow.lines (i + 3)) ++ rest) := by
    obtain ⟨x, ys, rfl⟩ := List.exists_cons_of_ne_nil hne
    obtain ⟨l, ls, e, hl⟩ := flow_front (hx x (by simp)) (i + 2)
    exact .inl ⟨l, ls ++ (ys.flatMap (Flow.lines (i + 3)) ++ rest), by rw [List.flatMap_cons, e]; simp, hl.not_blank, hl.indent⟩
  obtain ⟨s1, k1, k2⟩ := h.box h0 hc hf ⟨hd, hkey⟩ rfl hg hb hfill
  obtain ⟨s2, k3, k4⟩ := AtL.flows (i := i + 2) h0 (hr.mono (by omega)) hx k2 (boxFrame_body E _ i []) rfl rfl
  exact ⟨s2, k1.trans k3, k4⟩

end Rustla
