import Verif.Lemmas.Headings
/-! # Hyperlink targets in front of titles -/
namespace Rustla
open Spec

theorem targetsAt_zero (ts : List Target) : targetsAt 0 ts = targetLines ts := rfl

theorem target_low (t : Target) (rest : List Str) : Low 1 (t.line :: rest) := by
  intro l hl
  obtain rfl : t.line = l := by simpa using hl
  have h := front_target t 0
  exact ⟨h.not_blank, by have := h.indent; show indentOf (indentLine 0 t.line) < 1; omega⟩

/-- A target closes an open node. -/
theorem AtL.shut_target {labels : List Str} {E : Env} {S : SectionData} {os : List Frame} {s : LoopState} {e f : Frame} {fs : List Frame} {c : Nat}
    {t : Target} {rest : List Str} (h0 : E.baseIndent = 0) (ht : t.Ok) (h : AtL labels E S os s (e :: f :: fs) (t.line :: rest) c) (hc : c ≤ 9)
    (he : Deep 0 e) : LeadsL labels E S os s (f.add [e.shape] :: fs) (t.line :: rest) (c + headCost [e]) := by
  have e2 : ∀ st : State, st.listing → firstTransition t.line (listTable E st) = none := (target_transition E ht 0).1
  have e3 : firstTransition t.line (bodyTable E) = some (targetMatch t 0, bodyHyperlinkTarget E) := (target_transition E ht 0).2
  rcases he with ⟨h1 | h1, t5, h5, h6⟩ | ⟨_, h1, _⟩
  · obtain ⟨⟨ts, hts, hts'⟩, hst, hnl⟩ := h1.table E
    have hcost : headCost [e] = 1 := by simp [headCost, hnl]
    rw [hcost]
    obtain ⟨d', k1, k2, k3⟩ := h.spine.leave
    refine h.left hc hts hst ((hts' _ (target_noBreak t 0 _)).trans e3) (n := s.ps.sectionLevel) ?_ k2 k3
    rw [target_acts E ht, atIndent_low h.spine h5 h6]
    exact k1
  · have hcost : headCost [e] = 1 := by simp [headCost, h1, State.listing]
    rw [hcost]
    obtain ⟨x, u, hx, hxw⟩ : ∃ x r, t.line = spaces 0 ++ x :: r ∧ isWs x = false := target_visible t 0
    rw [hx] at h ⊢
    exact h.leave_quiz hc h1 h5 hxw (by omega)
  · rw [headCost_list h1.listing]
    exact h.leave_unmarked hc h1.listing (e2 _ h1.listing)

/-- A target closes open nodes. -/
theorem AtL.unwind_target {labels : List Str} {E : Env} {S : SectionData} {os : List Frame} {f : Frame} {fs : List Frame} {t : Target} {rest : List Str}
    (h0 : E.baseIndent = 0) (ht : t.Ok) :
    ∀ (n : Nat) (ex : List Frame) {s : LoopState} {c : Nat}, ex.length = n →
      (∀ e ∈ ex, Deep 0 e) → AtL labels E S os s (ex ++ f :: fs) (t.line :: rest) c → c + headCost ex ≤ 9 →
      LeadsL labels E S os s (f.add (shut [] ex) :: fs) (t.line :: rest) (c + headCost ex) := by
  intro n
  induction n with
  | zero =>
    intro ex s c hn _ h _
    obtain rfl : ex = [] := List.length_eq_zero_iff.mp hn
    rw [shut, Frame.add_nil]; exact h.leads
  | succ n ih =>
    intro ex s c hn he h hc
    cases ex with
    | nil => simp at hn
    | cons e ex =>
      have hcost : headCost (e :: ex) = headCost [e] + headCost ex := headCost_append [e] ex
      rw [hcost] at hc ⊢
      cases ex with
      | nil =>
        have := AtL.shut_target h0 ht h (by omega) (he e (by simp))
        have e2 : shut [] [e] = [e.shape] := by simp [shut, Frame.shape]
        rw [e2]; exact this
      | cons g es =>
        obtain ⟨s', k1, k2⟩ := AtL.shut_target (fs := es ++ f :: fs) h0 ht h (by omega) (he e (by simp))
        have hsame : headCost (g.add [e.shape] :: es) = headCost (g :: es) := rfl
        have := ih (g.add [e.shape] :: es) (by simpa using hn) (fun x hx => by
          rcases List.mem_cons.mp hx with rfl | hx
          · exact he g (by simp)
          · exact he x (by simp [hx])) k2 (by rw [hsame]; omega)
        have e2 : shut [] (g.add [e.shape] :: es) = shut [] (e :: g :: es) := by
          rw [shut_add]; simp [shut, Frame.shape]
        rw [e2, hsame] at this
        have e3 : c + headCost [e] + headCost (g :: es) = c + (headCost [e] + headCost (g :: es)) := by omega
        rw [e3] at this
        exact k1.leads this

/-- The open nodes that a target closes are in front of the open sections. -/
theorem split_deep {lvl : Nat} : ∀ {ex : List Frame}, (∀ e ∈ ex, HeadShuts lvl e) →
    ∃ d r, ex = d ++ r ∧ (∀ e ∈ d, Deep 0 e) ∧ ∀ g, r.head? = some g → g.st = .Section ∧ ∃ t l st, g.data = .Section t l st
  | [], _ => ⟨[], [], rfl, by simp, by simp⟩
  | e :: ex, h => by
    rcases h e (by simp) with he | ⟨h1, t, l, st, h2, _⟩
    · obtain ⟨d, r, e1, e2, e3⟩ := split_deep (ex := ex) fun x hx => h x (by simp [hx])
      refine ⟨e :: d, r, by rw [e1]; rfl, fun x hx => ?_, e3⟩
      rcases List.mem_cons.mp hx with rfl | hx
      · exact he
      · exact e2 x hx
    · refine ⟨[], e :: ex, rfl, by simp, fun g hg => ?_⟩
      obtain rfl : e = g := by simpa using hg
      exact ⟨h1, t, l, st, h2⟩

theorem shut_behind (r : List Frame) : ∀ (d : List Frame) (acc : List Shape), shut acc (d ++ r) = shut (shut acc d) r
  | [], _ => by simp [shut]
  | e :: d, acc => by simp only [List.cons_append, shut]; exact shut_behind r d _

theorem shut_deep (d r : List Frame) (g : Frame) : shut (shut [] d) (g :: r) = shut [] (d ++ g :: r) := (shut_behind _ _ _).symm

/-- The targets before a title: they close everything but sections. -/
theorem AtL.title_targets {E : Env} {S : SectionData} {os : List Frame} {f : Frame} {fs ex : List Frame} {rest : List Str} {s : LoopState} {ts : List Target}
    {lvl lvl' lvl'' : Nat} (h0 : E.baseIndent = 0) (hf : Opens lvl' f) (hr : Margin 0 rest) (hok : ∀ t ∈ ts, t.Ok)
    (hex : ∀ e ∈ ex, HeadShuts lvl e) (hex' : ∀ e ∈ ex, HeadShuts lvl'' e) (hcost : headCost ex ≤ 9)
    (h : At E S os s (ex ++ f :: fs) (targetLines ts ++ rest) 0) :
    ∃ ex' ss, LeadsL (ts.map Target.label) E S os s (ex' ++ f.add ss :: fs) rest 0 ∧ ss ++ shut [] ex' = shut [] ex ∧
      (∀ e ∈ ex', HeadShuts lvl e) ∧ (∀ e ∈ ex', HeadShuts lvl'' e) ∧ headCost ex' ≤ headCost ex := by
  cases ts with
  | nil => exact ⟨ex, [], by rw [Frame.add_nil]; exact h.leads, rfl, hex, hex', Nat.le_refl _⟩
  | cons t ts =>
    obtain ⟨d, r, rfl, hd, hrs⟩ := split_deep hex
    rw [headCost_append] at hcost
    have e : targetLines (t :: ts) ++ rest = t.line :: (t.gap ++ (targetLines ts ++ rest)) := by simp [targetLines, Target.lines]
    cases r with
    | nil =>
      rw [List.append_nil, e] at h
      obtain ⟨s1, k1, k2⟩ := h.unwind_target h0 (hok t (by simp)) d.length d rfl hd (by omega)
      rw [← e] at k2
      have hf' : Opens lvl' (f.add (shut [] d)) := hf
      have := k2.targets h0 (hf'.body (E := E)) hr (t :: ts) hok (by simp) (by omega)
      refine ⟨[], shut [] d, k1.leads this, by simp [shut], by simp, by simp, by simp [headCost]⟩
    | cons g r =>
      have e5 : d ++ g :: r ++ f :: fs = d ++ g :: (r ++ f :: fs) := by simp
      rw [e5, e] at h
      obtain ⟨s1, k1, k2⟩ := h.unwind_target h0 (hok t (by simp)) d.length d rfl hd (by omega)
      rw [← e] at k2
      obtain ⟨g1, tt, l, st, g2⟩ := hrs g rfl
      have hg : Opens (l + 1) (g.add (shut [] d)) := .inr ⟨g1, tt, l, st, g2, by omega⟩
      have := k2.targets h0 (hg.body (E := E)) hr (t :: ts) hok (by simp) (by omega)
      refine ⟨g.add (shut [] d) :: r, [], ?_, ?_, ?_, ?_, ?_⟩
      · rw [Frame.add_nil]; exact k1.leads this
      · rw [shut_add, List.nil_append]; exact shut_deep ..
      · intro x hx
        rcases List.mem_cons.mp hx with rfl | hx
        · exact hex g (by simp)
        · exact hex x (by simp [hx])
      · intro x hx
        rcases List.mem_cons.mp hx with rfl | hx
        · exact hex' g (by simp)
        · exact hex' x (by simp [hx])
      · rw [headCost_append]
        have : headCost (g.add (shut [] d) :: r) = headCost (g :: r) := rfl
        omega

end Rustla
