import Verif.Lemmas.Rules
import Verif.Lemmas.Targets
import Verif.Props.Termination
import Mathlib.Data.List.TakeWhile
/-! # Documents with sections -/
namespace Rustla
open Spec

/-- The styles that have appeared after some more sections. -/
def seenAfter (seen : List SectionLineStyle) : List (Nat × Sec) → List SectionLineStyle
  | [] => seen
  | r :: L => seenAfter (if r.2.style ∈ seen then seen else seen ++ [r.2.style]) L

/-- The levels of the sections are right. -/
def Leveled (seen : List SectionLineStyle) : List (Nat × Sec) → Prop
  | [] => True
  | r :: L => r.1 = seen.idxOf r.2.style + 1 ∧ Leveled (if r.2.style ∈ seen then seen else seen ++ [r.2.style]) L

theorem leveled_append {seen : List SectionLineStyle} {A B : List (Nat × Sec)} :
    Leveled seen (A ++ B) ↔ Leveled seen A ∧ Leveled (seenAfter seen A) B := by
  induction A generalizing seen with
  | nil => simp [Leveled, seenAfter]
  | cons r A ih => simp only [List.cons_append, Leveled, seenAfter, ih]; exact and_assoc.symm

theorem leveled_withLevels (seen : List SectionLineStyle) (secs : List Sec) : Leveled seen (withLevels seen secs) := by
  induction secs generalizing seen with
  | nil => trivial
  | cons s secs ih => exact ⟨rfl, ih _⟩

theorem seenAfter_append (seen : List SectionLineStyle) (A B : List (Nat × Sec)) :
    seenAfter seen (A ++ B) = seenAfter (seenAfter seen A) B := by
  induction A generalizing seen with
  | nil => rfl
  | cons r A ih => exact ih _

theorem seenAfter_length (seen : List SectionLineStyle) (L : List (Nat × Sec)) : seen.length ≤ (seenAfter seen L).length := by
  induction L generalizing seen with
  | nil => exact Nat.le_refl _
  | cons r L ih =>
    refine Nat.le_trans ?_ (ih _)
    split
    · exact Nat.le_refl _
    · simp

theorem leveled_le {seen : List SectionLineStyle} {L : List (Nat × Sec)} (h : Leveled seen L) :
    ∀ r ∈ L, 0 < r.1 ∧ r.1 ≤ (seenAfter seen L).length := by
  induction L generalizing seen with
  | nil => intro r hr; cases hr
  | cons r L ih =>
    intro x hx
    rcases List.mem_cons.mp hx with rfl | hx
    · refine ⟨by rw [h.1]; omega, Nat.le_trans ?_ (seenAfter_length _ L)⟩
      rw [h.1]
      by_cases hm : x.2.style ∈ seen
      · rw [if_pos hm]
        have := List.idxOf_lt_length_of_mem hm
        omega
      · rw [if_neg hm, List.idxOf_eq_length hm]; simp
    · exact ih h.2 x hx

theorem HeadShuts.mono {a b : Nat} {e : Frame} (h : HeadShuts a e) (hb : b ≤ a) : HeadShuts b e := by
  rcases h with h | ⟨h1, t, l, st, h2, h3⟩
  · exact .inl h
  · exact .inr ⟨h1, t, l, st, h2, by omega⟩

/-- Lists, items and directives are closed by every title. -/
theorem Deep.heading {e : Frame} (h : Deep 0 e) (lvl : Nat) : HeadShuts lvl e := .inl h

/-- Every section ends with a blank line, except for the last one if nothing follows. -/
def Gaps (L : List (Nat × Sec)) (after : List Str) : Prop :=
  ∀ a r b, L = a ++ r :: b → BlankLast (tailLines (r.2.body.lines 0) r.2.more) ∨ (b = [] ∧ after = [])

/-- The lines of a list of sections. -/
def secLines (L : List (Nat × Sec)) : List Str := (L.map fun r => r.2.lines).flatten

theorem secLines_append (A B : List (Nat × Sec)) : secLines (A ++ B) = secLines A ++ secLines B := by simp [secLines]

theorem secLines_cons (r : Nat × Sec) (L : List (Nat × Sec)) : secLines (r :: L) = r.2.lines ++ secLines L := by simp [secLines]

/-- A title starts at the left margin. -/
theorem heading_low {sec : Sec} (h : sec.Ok) (rest : List Str) : Low 1 (sec.heading ++ rest) := by
  obtain ⟨htitle, hc, hlen, hover, _, _, _⟩ := h
  cases ho : sec.over with
  | false =>
    have := (front_text htitle.toTextLine 0).low (ls := List.replicate sec.len sec.char :: rest) (j := 1) (by omega)
    simpa [Sec.heading, ho, indentLine] using this
  | true =>
    obtain ⟨n, hn⟩ : ∃ n, sec.len = n + 1 := ⟨sec.len - 1, by omega⟩
    intro l hl
    have hw := adornment_not_ws hc
    obtain rfl : List.replicate sec.len sec.char = l := by simpa [Sec.heading, ho] using hl
    rw [hn, List.replicate_succ]
    exact ⟨(isBlank_false_iff _).mpr ⟨sec.char, by simp, hw⟩, by simp [indentOf, List.takeWhile_cons, hw]⟩

theorem secLines_low {L : List (Nat × Sec)} {after : List Str} (h : ∀ r ∈ L, r.2.Ok) (ha : Low 1 after) : Low 1 (secLines L ++ after) := by
  cases L with
  | nil => simpa [secLines] using ha
  | cons r L =>
    cases ht : r.2.targets with
    | nil =>
      have := heading_low (h r (by simp)) (r.2.gap ++ (r.2.body.lines 0 ++ (ruledLines r.2.more ++ (secLines L ++ after))))
      simpa [secLines_cons, Sec.lines, ht, targetLines] using this
    | cons t ts =>
      have := target_low t (t.gap ++ (targetLines ts ++ (r.2.heading ++ (r.2.gap ++ (r.2.body.lines 0 ++ (ruledLines r.2.more ++ (secLines L ++ after)))))))
      simpa [secLines_cons, Sec.lines, ht, targetLines, Target.lines] using this

/-- Sections in an open node. -/
theorem forest_run {E : Env} {n : Nat} (h0 : E.baseIndent = 0) (hN : E.nested = parserOf n) {H C K : Nat} (hH : H ≤ 8) (hK : C + K ≤ 9) :
    ∀ (N : Nat) (L : List (Nat × Sec)) (f : Frame) (fs ex : List Frame) (after : List Str) (s : LoopState) (S : SectionData)
      (seen : List SectionLineStyle) (l0 : Nat), L.length ≤ N → Leveled seen L → SectionInv S seen →
      (∀ r ∈ L, r.2.Ok ∧ ∀ b ∈ r.2.bodies, (b.height ≤ H ∧ b.cost ≤ C) ∧ roundsBound (textSize (b.lines 0)) ≤ n) → Gaps L after → Low 1 after →
      (∀ r ∈ L, l0 < r.1 ∧ r.1 ≤ K ∧ Opens r.1 f) → (∀ r, L.head? = some r → ∀ e ∈ ex, HeadShuts r.1 e) →
      (∀ e ∈ ex, HeadShuts (l0 + 1) e) → headCost ex ≤ C + (K - l0) → At E S [] s (ex ++ f :: fs) (secLines L ++ after) 0 →
      ∃ S' ex' ss, Leads E S' [] s (ex' ++ f.add ss :: fs) after 0 ∧ SectionInv S' (seenAfter seen L) ∧
        ss ++ shut [] ex' = shut [] ex ++ forest L ∧ headCost ex' ≤ C + (K - l0) ∧ ∀ e ∈ ex', HeadShuts (l0 + 1) e := by
  intro N
  induction N with
  | zero =>
    intro L f fs ex after s S seen l0 hlen _ hS _ _ _ _ _ hkeep hcost h
    obtain rfl : L = [] := List.length_eq_zero_iff.mp (by omega)
    refine ⟨S, ex, [], ?_, hS, by simp [forest], hcost, hkeep⟩
    rw [Frame.add_nil]; exact h.leads
  | succ N ih =>
    intro L f fs ex after s S seen l0 hlen hlev hS hok hgaps hlow hlvl hhead hkeep hcost h
    cases L with
    | nil =>
      refine ⟨S, ex, [], ?_, hS, by simp [forest], hcost, hkeep⟩
      rw [Frame.add_nil]; exact h.leads
    | cons r rest =>
      obtain ⟨l, sec⟩ := r
      obtain ⟨A, B, hAB, hA, hB⟩ : ∃ A B, A ++ B = rest ∧ A = rest.takeWhile (fun r => decide (l < r.1)) ∧
          B = rest.dropWhile (fun r => decide (l < r.1)) := ⟨_, _, List.takeWhile_append_dropWhile, rfl, rfl⟩
      have hlA : ∀ r ∈ A, l < r.1 := by
        intro r hr
        rw [hA] at hr
        have := List.mem_takeWhile_imp hr
        simpa using this
      have hlB : ∀ r, B.head? = some r → r.1 ≤ l := by
        intro r hr
        have := List.head?_dropWhile_not (fun r : Nat × Sec => decide (l < r.1)) rest
        rw [← hB, hr] at this
        simpa using this
      have hforest : forest ((l, sec) :: rest) =
          .labelled (.Section (trim sec.title) l sec.style) sec.labels (sec.body.shapes 0 ++ ruledShapes sec.more ++ forest A) :: forest B := by
        rw [forest, ← hA, ← hB]
      obtain ⟨hl, hlev'⟩ := hlev
      simp only at hl hlev'
      obtain ⟨hsec, hdep⟩ := hok (l, sec) (by simp)
      simp only at hsec hdep
      obtain ⟨hl0, hlK, hopens⟩ := hlvl (l, sec) (by simp)
      simp only at hl0 hlK hopens
      have hlevel : S.levelOf sec.style = l := by rw [sectionInv_level hS, hl]
      have hlines : secLines ((l, sec) :: rest) ++ after =
          targetLines sec.targets ++ (sec.heading ++ (sec.gap ++ (sec.body.lines 0 ++ (ruledLines sec.more ++ (secLines A ++ (secLines B ++ after)))))) := by
        rw [secLines_cons, ← hAB, secLines_append]; simp [Sec.lines]
      rw [hlines] at h
      -- the targets
      obtain ⟨ext, sst, ⟨s0, t1, t2⟩, t3, t4, _, t6⟩ := h.title_targets (lvl'' := l0 + 1) h0 hopens
        (heading_low hsec _).margin hsec.2.2.2.2.2.2.2 (hhead _ rfl) hkeep (by omega)
      -- the title
      obtain ⟨s1, k1, k2⟩ := t2.unwind_heading h0 hsec ext.length ext rfl (by rw [hlevel]; exact t4) (by omega)
      rw [Frame.add_add, t3] at k2
      replace k1 := t1.trans k1
      obtain ⟨S1, ⟨s2, k3, k4⟩, k5⟩ := k2.open_section h0 hsec (by omega) hS (by rw [← hl]; exact hopens)
      rw [← hl] at k4
      obtain ⟨s3, k6, k7⟩ := k4.blanks (.inr (.inl rfl)) hsec.2.2.2.2.1
      -- the blocks
      have hblank : BlankLast (tailLines (sec.body.lines 0) sec.more) ∨ Ends 0 (secLines A ++ (secLines B ++ after)) := by
        rcases hgaps [] (l, sec) rest rfl with hg | ⟨rfl, rfl⟩
        · exact .inl hg
        · obtain ⟨rfl, rfl⟩ := List.append_eq_nil_iff.mp hAB
          exact .inr fun x hx => by simp [secLines] at hx
      have hokA : ∀ r ∈ A, r.2.Ok := fun r hr => (hok r (by rw [← hAB]; simp [hr])).1
      have hokB : ∀ r ∈ B, r.2.Ok := fun r hr => (hok r (by rw [← hAB]; simp [hr])).1
      obtain ⟨exb, ssb, ⟨s4, k8, k9⟩, kb1, kb3, kb4⟩ := chapter_run (H := H) (C := C) (lvl := l + 1) h0 hN hH (by omega)
        (fs := f.add (shut [] ex) :: fs) (secLines_low hokA (secLines_low hokB hlow)) sec.more sec.body (before := sec.gap)
        (f := secFrame (trim sec.title) l sec.style [] (sec.targets.map Target.label)) (.inr ⟨rfl, _, _, _, rfl, by omega⟩) hsec.2.2.2.2.2.1 hsec.2.2.2.2.2.2.1 hdep hblank k4.here k7
      -- the subsections
      have hlevAB := hlev'
      rw [← hAB, leveled_append] at hlevAB
      obtain ⟨S2, exA, ssA, ⟨s5, k10, k11⟩, k12, k13, k14, k15⟩ := ih A ((secFrame (trim sec.title) l sec.style [] (sec.targets.map Target.label)).add ssb)
        (f.add (shut [] ex) :: fs) exb (secLines B ++ after) s4 S1 _ l
        (by have := congrArg List.length hAB; simp only [List.length_append] at this; simp only [List.length_cons] at hlen; omega)
        hlevAB.1 k5 (fun r hr => hok r (by rw [← hAB]; simp [hr]))
        (by
          intro a r b e
          rcases hgaps ((l, sec) :: a) r (b ++ B) (by rw [← hAB, e]; simp) with hg | ⟨h1, h2⟩
          · exact .inl hg
          · obtain ⟨rfl, rfl⟩ := List.append_eq_nil_iff.mp h1
            exact .inr ⟨rfl, by simp [secLines, h2]⟩)
        (secLines_low hokB hlow)
        (fun r hr => ⟨hlA r hr, (hlvl r (by rw [← hAB]; simp [hr])).2.1, .inr ⟨rfl, _, _, _, rfl, hlA r hr⟩⟩)
        (fun r _ e he => (kb3 e he).heading _) (fun e he => (kb3 e he).heading _)
        (by omega) k9
      rw [Frame.add_add] at k11
      -- the sections behind it
      have e3 : exA ++ (secFrame (trim sec.title) l sec.style [] (sec.targets.map Target.label)).add (ssb ++ ssA) :: f.add (shut [] ex) :: fs =
          (exA ++ [(secFrame (trim sec.title) l sec.style [] (sec.targets.map Target.label)).add (ssb ++ ssA)]) ++ f.add (shut [] ex) :: fs := by simp
      rw [e3] at k11
      have hcost2 : headCost (exA ++ [(secFrame (trim sec.title) l sec.style [] (sec.targets.map Target.label)).add (ssb ++ ssA)]) ≤ C + (K - l0) := by
        rw [headCost, List.countP_append]
        have : List.countP (fun e : Frame => decide (¬ e.st.listing)) [(secFrame (trim sec.title) l sec.style [] (sec.targets.map Target.label)).add (ssb ++ ssA)] = 1 := rfl
        unfold headCost at k14
        omega
      have hshuts : ∀ v, v ≤ l → ∀ e ∈ exA ++ [(secFrame (trim sec.title) l sec.style [] (sec.targets.map Target.label)).add (ssb ++ ssA)], HeadShuts v e := by
        intro v hv e he
        rcases List.mem_append.mp he with he | he
        · exact (k15 e he).mono (by omega)
        · obtain rfl := List.mem_singleton.mp he
          exact .inr ⟨rfl, _, _, _, rfl, hv⟩
      obtain ⟨S3, ex', ss, m1, m2, m3, m4, m5⟩ := ih B (f.add (shut [] ex)) fs _ after s5 S2 _ l0
        (by have := congrArg List.length hAB; simp only [List.length_append] at this; simp only [List.length_cons] at hlen; omega)
        hlevAB.2 k12 (fun r hr => hok r (by rw [← hAB]; simp [hr]))
        (by
          intro a r b e
          exact hgaps ((l, sec) :: A ++ a) r b (by rw [← hAB, e]; simp)) hlow
        (fun r hr => hlvl r (by rw [← hAB]; simp [hr]))
        (fun r hr => hshuts r.1 (hlB r hr)) (hshuts (l0 + 1) (by omega)) hcost2 k11
      refine ⟨S3, ex', shut [] ex ++ ss, ?_, ?_, ?_, m4, m5⟩
      · rw [Frame.add_add] at m1
        exact ((((k1.trans k3).trans k6).trans k8).trans k10).leads m1
      · show SectionInv S3 (seenAfter _ rest)
        rw [← hAB, seenAfter_append]; exact m2
      · rw [List.append_assoc, m3, shut_append, hforest]
        simp only [Frame.add, List.nil_append]
        have : ssb ++ ssA ++ shut [] exA = sec.body.shapes 0 ++ ruledShapes sec.more ++ forest A := by
          rw [List.append_assoc, k13, ← List.append_assoc, kb1]
        rw [this]; simp [ownLabels, Sec.labels, secFrame]

/-! ## From the loop to the parser -/

theorem walk_spine : ∀ {fs : List Frame} {n : TreeNode} {path : List (TreeNode × Nat)} {g : Frame} {es : List Frame},
    Spine ⟨n, path⟩ (g :: es) → g :: es = fs → ∀ {ex : List Frame} {f : Frame}, fs = ex ++ [f] →
      ∃ t, Zipper.walkToRootAux n path = .ok t ∧ shapeOf t = .labelled f.data f.labels (f.done ++ shut [] ex) := by
  intro fs n path
  induction path generalizing n fs with
  | nil =>
    intro g es hsp hfs ex f he
    cases hsp with
    | mk hl hab =>
      cases hab
      subst hfs
      cases ex with
      | nil =>
        simp only [List.nil_append, List.cons.injEq, and_true] at he
        subst he
        exact ⟨n, rfl, by rw [hl.shape]; simp [Frame.shape, shut]⟩
      | cons e ex => simp at he
  | cons p path ih =>
    intro g es hsp hfs ex f he
    cases hsp with
    | mk hl hab =>
      cases hab with
      | cons hp hrest =>
        rename_i cs q h cs' fs'
        subst hfs
        cases ex with
        | nil => simp at he
        | cons e ex =>
          obtain ⟨rfl, he⟩ : g = e ∧ h :: fs' = ex ++ [f] := by simpa using he
          have hspine : Spine ⟨q.setChildren (some (cs' ++ [n])), path⟩ (h.add [g.shape] :: fs') :=
            .mk (hp.add (ns := [n]) (by simp [shapesOf, hl.shape])) hrest
          have hw : Zipper.walkToRootAux n ((q, cs'.length) :: path) = Zipper.walkToRootAux (q.setChildren (some (cs' ++ [n]))) path := by
            simp only [Zipper.walkToRootAux, hp.2.1, pushSwap, bind, Except.bind]
            simp
          rw [hw]
          cases ex with
          | nil =>
            obtain ⟨rfl, rfl⟩ : h = f ∧ fs' = [] := by simpa using he
            obtain ⟨t, h1, h2⟩ := ih hspine rfl (ex := []) (f := h.add [g.shape]) rfl
            exact ⟨t, h1, by rw [h2]; simp [shut, Frame.add, Frame.shape]⟩
          | cons e ex =>
            obtain ⟨rfl, rfl⟩ : h = e ∧ fs' = ex ++ [f] := by simpa using he
            obtain ⟨t, h1, h2⟩ := ih hspine rfl (ex := h.add [g.shape] :: ex) (f := f) (by simp)
            refine ⟨t, h1, ?_⟩
            rw [h2, shut_add]; simp [shut, Frame.shape]

/-- A result of the loop stays the same with a better nested parser and more rounds. -/
theorem loop_more {M M' : Machine} (h : ∀ s, parseStep M s = .error .outOfFuel ∨ parseStep M s = parseStep M' s) (j : Nat) :
    ∀ (n : Nat) (s : LoopState) {r : Run ParsingResult}, parseLoop M n s = r → r ≠ .error .outOfFuel → parseLoop M' (n + j) s = r := by
  intro n
  induction n with
  | zero => intro s r hr hne; exact absurd hr.symm hne
  | succ n ih =>
    intro s r hr hne
    have e : n + 1 + j = n + j + 1 := by omega
    rw [e]
    rw [parseLoop] at hr ⊢
    rcases h s with e | e
    · rw [e] at hr; exact absurd hr.symm hne
    · rw [← e]
      cases hs : parseStep M s with
      | error p => rw [hs] at hr; exact hr
      | ok x =>
        rw [hs] at hr
        cases x with
        | done x => exact hr
        | next s' => exact ih s' hr hne

end Rustla
