import Verif.Lemmas.Headings
/-! # Transitions -/
namespace Rustla
open Spec

@[simp] theorem ruledLines_nil : ruledLines [] = [] := rfl
@[simp] theorem ruledShapes_nil : ruledShapes [] = [] := rfl
@[simp] theorem ruledLatex_nil (w : WriterEnv) : ruledLatex w [] = [] := rfl

/-- A node that refuses a child of the kind is left unchanged. -/
theorem Spine.refused {s : PS} {f : Frame} {fs : List Frame} (h : Spine s.doc.tree (f :: fs)) {data : NodeType}
    (ha : childIsAllowed f.data.kind data.kind = .ok false) (hs : Simple data.kind) (hq : s.doc.hyperref.accumulated = []) :
    ∃ d', P.tryPush data s = .ok false { s with doc := d' } ∧ Spine d'.tree (f :: fs) ∧ d'.notes = s.doc.notes := by
  have hk : childIsAllowed s.doc.tree.node.kind data.kind = .ok false := by
    show childIsAllowed s.doc.tree.node.data.kind _ = _
    rw [h.data]; exact ha
  obtain ⟨q1, q2⟩ := hyperref_notes _ _ hs hq
  have e0 := hyperref_data s.doc data hs.1 hs.2.1
  unfold P.tryPush DocTree.pushData
  rcases hh : s.doc.hyperrefActions data with ⟨ls, data', d1⟩
  rw [hh] at q1 q2 e0
  simp only at q1 q2 e0
  subst e0
  have e1 : d1.tree = s.doc.tree := by have := DocTree.hyperref_tree s.doc data'; rw [hh] at this; exact this
  rcases hc : d1.takeClasses with ⟨cl, d2⟩
  have e2 : d2.tree = d1.tree := by have := DocTree.takeClasses_tree d1; rw [hc] at this; exact this
  have e3 : d2.notes = d1.notes := by
    unfold DocTree.takeClasses at hc
    split at hc <;> cases hc <;> rfl
  have hnew : (TreeNode.new data' d2.nodeCount ls cl).kind = data'.kind := rfl
  refine ⟨d2, ?_, by rw [e2, e1]; exact h, e3.trans q1⟩
  simp only [bind, Except.bind, hc]
  simp only [Zipper.pushData, Zipper.pushChild, TreeNode.pushChild, e2, e1, hnew, hk, bind, Except.bind, pure, Except.pure,
    Bool.false_eq_true, if_false]

/-- A node with room for another leaf. -/
theorem Spine.pushed {s : PS} {f : Frame} {fs : List Frame} (h : Spine s.doc.tree (f :: fs)) {data : NodeType}
    (ha : childIsAllowed f.data.kind data.kind = .ok true) (hs : Simple data.kind) (hq : s.doc.hyperref.accumulated = []) :
    ∃ d', P.tryPush data s = .ok true { s with doc := d' } ∧ Spine d'.tree (f.add [.node data []] :: fs) ∧ d'.notes = s.doc.notes := by
  generalize hz : s.doc.tree = z at h
  cases h with
  | mk hl hab =>
    rename_i n cs path
    obtain ⟨d', x, h1, h2, h3, h4⟩ := P.push_ok (s := s) (data := data) (cs := cs) (by rw [hz]; exact hl.2.1)
      (by rw [hz]; show childIsAllowed n.data.kind _ = _; rw [hl.1]; exact ha) hs hq
    refine ⟨d', ?_, ?_, h2⟩
    · unfold P.push P.orFail at h1
      unfold P.tryPush
      cases hd : s.doc.pushData data with
      | error e => rw [hd] at h1; simp at h1
      | ok r =>
        obtain ⟨b, d⟩ := r
        rw [hd] at h1
        cases b with
        | false => simp at h1
        | true => simpa using h1
    · rw [h4, hz]
      exact .mk (hl.add (ns := [x]) (by simp [shapesOf, h3])) hab

/-- Nodes with a positive indentation do not take transitions. -/
theorem refuses_rule {d : NodeType} {t : Nat} (h : d.bodyIndent = some t) (ht : 0 < t) : childIsAllowed d.kind .Transition = .ok false := by
  cases d <;> first
    | rfl
    | (simp [NodeType.bodyIndent] at h; done)
    | (simp only [NodeType.bodyIndent, Option.some.injEq] at h; omega)

theorem prev_line {src before lines : List Str} {k o : Nat} (h : src.drop k = before ++ lines) (h' : src.drop o = lines) (hl : lines ≠ [])
    (hb : BlankBefore before) : o ≠ 0 ∧ ∃ l, src[o - 1]? = some l ∧ isBlank l = true := by
  obtain ⟨l, h1, h2⟩ := hb
  have hne : before ≠ [] := by rintro rfl; simp at h1
  have p1 : 0 < before.length := List.length_pos_iff.mpr hne
  have p2 : 0 < lines.length := List.length_pos_iff.mpr hl
  have e1 := congrArg List.length h
  have e2 := congrArg List.length h'
  simp only [List.length_drop, List.length_append] at e1 e2
  have ho : o = k + before.length := by omega
  refine ⟨by omega, l, ?_, h2⟩
  have : (src.drop k)[before.length - 1]? = some l := by
    rw [h, List.getElem?_append_left (by omega), ← List.getLast?_eq_getElem?]; exact h1
  rw [List.getElem?_drop] at this
  rw [← this, ho]
  congr 1
  omega

/-- Well-formed transitions. -/
def RuleOk (r : Rule) : Prop := (r.char ∈ adornments ∧ r.char ≠ ':' ∧ 4 ≤ r.len) ∧ (r.gap ≠ [] ∧ ∀ l ∈ r.gap, isBlank l = true)

/-- What the line of a transition does in the body of a document and in a list. -/
theorem rule_transition (E : Env) {r : Rule} (hr : RuleOk r) (rest : List Str) :
    (∀ st : State, st.listing → firstTransition r.line (listTable E st) = none) ∧
    ∃ m t, firstTransition r.line (bodyTable E) = some (m, t) ∧
      ∀ ps : PS, E.src.drop ps.cursor.relativeOffset = r.line :: (r.gap ++ rest) →
        (ps.cursor.relativeOffset ≠ 0 ∧ ∃ l, E.src[ps.cursor.relativeOffset - 1]? = some l ∧ isBlank l = true) →
        t m ps = P.bind (P.tryPush .Transition) (fun b => if b then pure (PushOrPop.neither, some 2) else leave) ps := by
  obtain ⟨⟨hc, hcolon, hlen⟩, hg, hb⟩ := hr
  obtain ⟨n, hn⟩ : ∃ n, r.len = n + 3 := ⟨r.len - 3, by omega⟩
  obtain ⟨k1, k2⟩ := over_transition E hc hcolon n
  have hline : r.line = List.replicate (n + 3) r.char := by rw [Rule.line, hn]
  rw [← hline] at k1 k2
  refine ⟨k2, _, _, k1, fun ps hps hprev => ?_⟩
  obtain ⟨g, gs, hgs⟩ : ∃ g gs, r.gap = g :: gs := by
    cases h : r.gap with
    | nil => exact absurd h hg
    | cons g gs => exact ⟨g, gs, rfl⟩
  have hw := adornment_not_ws hc
  have hgb : isBlank g = true := hb g (by simp [hgs])
  have h2 : E.src[ps.cursor.relativeOffset + 1]? = some g := by
    have := congrArg (·[1]?) hps
    simpa [hgs] using this
  obtain ⟨ho, l, hl, hlb⟩ := hprev
  have hgD : Match.getD ⟨r.line, [], [(.g1, r.line)]⟩ .g1 = List.replicate r.len r.char := rfl
  have h5 : List.replicate r.len r.char = r.char :: List.replicate (n + 2) r.char := by rw [hn, List.replicate_succ]
  unfold bodyLine
  simp only [hgD, bind, P.bind, P.offset, P.required, pure, trimEnd_replicate hw, List.length_replicate]
  simp only [h5, P.lift]
  simp only [h2, P.pure, ho, if_false, hl, hlb, hgb, Option.map_some, Option.getD_some, ge_iff_le, hlen, decide_true, Bool.and_self, if_true]
  unfold P.bind
  rfl

theorem rule_visible {r : Rule} (hr : RuleOk r) : ∃ x t, r.line = spaces 0 ++ x :: t ∧ isWs x = false := by
  obtain ⟨n, hn⟩ : ∃ n, r.len = n + 1 := ⟨r.len - 1, by have := hr.1.2.2; omega⟩
  exact ⟨r.char, List.replicate n r.char, by rw [Rule.line, hn, List.replicate_succ]; rfl, adornment_not_ws hr.1.1⟩

theorem rule_noBreak {r : Rule} (hr : RuleOk r) : reAplusColBreak.captures r.line = none := by
  obtain ⟨x, t, e, hx⟩ := rule_visible hr
  rw [e]; exact (noBreak_zero (st := .Body) hx (by simp)).1

/-- A transition starts at the left margin. -/
theorem rule_low {r : Rule} (hr : RuleOk r) (rest : List Str) : Low 1 (r.line :: rest) := by
  obtain ⟨x, t, e, hx⟩ := rule_visible hr
  intro l hl
  obtain rfl : r.line = l := by simpa using hl
  rw [e]
  exact ⟨(isBlank_false_iff _).mpr ⟨x, by simp, hx⟩, by simp [spaces, indentOf, List.takeWhile_cons, hx]⟩

/-- A transition closes an open node. -/
theorem AtL.shut_rule {E : Env} {S : SectionData} {os : List Frame} {s : LoopState} {e f : Frame} {fs : List Frame} {c : Nat} {r : Rule} {rest : List Str}
    (h0 : E.baseIndent = 0) (hr : RuleOk r) (h : At E S os s (e :: f :: fs) (r.line :: (r.gap ++ rest)) c) (hc : c ≤ 9)
    (hprev : s.ps.cursor.relativeOffset ≠ 0 ∧ ∃ l, E.src[s.ps.cursor.relativeOffset - 1]? = some l ∧ isBlank l = true)
    (he : Deep 0 e) :
    Leads E S os s (f.add [e.shape] :: fs) (r.line :: (r.gap ++ rest)) (c + headCost [e]) := by
  obtain ⟨e2, m, t, e3, e4⟩ := rule_transition E hr rest
  have hres := e4 s.ps h.here hprev
  obtain ⟨x, u, hx, hxw⟩ := rule_visible hr
  rcases he with ⟨h1, t5, h5, h6⟩ | ⟨_, h1, _⟩
  · rcases h1 with h1 | h1
    · obtain ⟨ht, hst, hnl⟩ := h1.table E
      have hcost : headCost [e] = 1 := by simp [headCost, hnl]
      rw [hcost]
      obtain ⟨d1, q1, q2, q3⟩ := h.spine.refused (data := .Transition) (refuses_rule h5 h6) (by simp [Simple, NodeType.kind]) h.calm
      obtain ⟨d', k1, k2, k3⟩ := Spine.leave (s := { s.ps with doc := d1 }) q2
      have hleave : t m s.ps = .ok (.pop, none) { s.ps with doc := d' } := by
        rw [hres]; unfold P.bind; rw [q1]; exact k1
      cases hat : reAttribution.captures r.line with
      | some m5 =>
        by_cases hbq : e.st = .BlockQuote
        · rw [hx] at hat
          obtain ⟨act, hact⟩ := attribution_acts (E := E) hxw hat s.ps
          obtain ⟨d5, r1, r2, r3⟩ := h.spine.leave
          have e5 := atIndent_low (k := 0 + E.baseIndent) h.spine h5 (by omega) act
          refine h.left hc (ts := (reBlankLine, emptyLine) :: (reAttribution, Rustla.attribution E) :: bodyRest E) (n := s.ps.sectionLevel)
            (by rw [hbq]; exact tableOf_quote E) hst (m := m5) (t := Rustla.attribution E) ?_ (by rw [hact, e5]; exact r1) r2 r3
          rw [hx]
          simp only [firstTransition, blankLine_dead (indented_not_blank (t := u) hxw 0), hat]
        · obtain ⟨ts, ht, hts⟩ := ht
          exact h.left hc ht hst ((hts _ ⟨rule_noBreak hr, fun e => absurd e hbq⟩).trans e3) (n := s.ps.sectionLevel) hleave k2 (k3.trans q3)
      | none =>
        obtain ⟨ts, ht, hts⟩ := ht
        exact h.left hc ht hst ((hts _ ⟨rule_noBreak hr, fun _ => hat⟩).trans e3) (n := s.ps.sectionLevel) hleave k2 (k3.trans q3)
    · have hcost : headCost [e] = 1 := by simp [headCost, h1, State.listing]
      rw [hcost]
      rw [hx] at h ⊢
      exact h.leave_quiz hc h1 h5 hxw (by omega)
  · rw [headCost_list h1.listing]
    exact h.leave_unmarked hc h1.listing (e2 _ h1.listing)

/-- A transition closes open nodes. -/
theorem AtL.unwind_rule {E : Env} {S : SectionData} {os : List Frame} {f : Frame} {fs : List Frame} {r : Rule} {rest before : List Str} {k : Nat}
    (h0 : E.baseIndent = 0) (hr : RuleOk r) (hb : BlankBefore before) (hk : E.src.drop k = before ++ r.line :: (r.gap ++ rest)) :
    ∀ (n : Nat) (ex : List Frame) {s : LoopState} {c : Nat}, ex.length = n →
      (∀ e ∈ ex, Deep 0 e) → At E S os s (ex ++ f :: fs) (r.line :: (r.gap ++ rest)) c → c + headCost ex ≤ 9 →
      Leads E S os s (f.add (shut [] ex) :: fs) (r.line :: (r.gap ++ rest)) (c + headCost ex) := by
  intro n
  induction n with
  | zero =>
    intro ex s c hn _ h _
    obtain rfl : ex = [] := List.length_eq_zero_iff.mp hn
    rw [shut, Frame.add_nil]; exact h.leads
  | succ n ih =>
    intro ex s c hn he h hc
    cases ex with
    | nil => simp at hn
    | cons e ex =>
      have hprev := prev_line hk h.here (by simp) hb
      have hcost : headCost (e :: ex) = headCost [e] + headCost ex := by
        show List.countP _ ([e] ++ ex) = _
        rw [List.countP_append]; rfl
      rw [hcost] at hc ⊢
      cases ex with
      | nil =>
        have := AtL.shut_rule h0 hr h (by omega) hprev (he e (by simp))
        have e2 : shut [] [e] = [e.shape] := by simp [shut, Frame.shape]
        rw [e2]; exact this
      | cons g es =>
        obtain ⟨s', k1, k2⟩ := AtL.shut_rule (fs := es ++ f :: fs) h0 hr h (by omega) hprev (he e (by simp))
        have hsame : headCost (g.add [e.shape] :: es) = headCost (g :: es) := rfl
        have := ih (g.add [e.shape] :: es) (by simpa using hn) (fun x hx => by
          rcases List.mem_cons.mp hx with rfl | hx
          · exact he g (by simp)
          · exact he x (by simp [hx])) k2 (by rw [hsame]; omega)
        have e2 : shut [] (g.add [e.shape] :: es) = shut [] (e :: g :: es) := by
          rw [shut_add]; simp [shut, Frame.shape]
        rw [e2, hsame] at this
        have e3 : c + headCost [e] + headCost (g :: es) = c + (headCost [e] + headCost (g :: es)) := by omega
        rw [e3] at this
        exact k1.leads this

/-- A transition in the document or in a section. -/
theorem AtL.rule {E : Env} {S : SectionData} {os : List Frame} {s : LoopState} {f : Frame} {fs : List Frame} {c : Nat} {r : Rule} {rest before : List Str} {k : Nat}
    (hr : RuleOk r) (hb : BlankBefore before) (hk : E.src.drop k = before ++ r.line :: (r.gap ++ rest))
    (h : At E S os s (f :: fs) (r.line :: (r.gap ++ rest)) c) (hc : c ≤ 9) {lvl : Nat} (hf : Opens lvl f) :
    Leads E S os s (f.add [.node .Transition []] :: fs) rest 0 := by
  obtain ⟨_, m, t, e3, e4⟩ := rule_transition E hr rest
  have hres := e4 s.ps h.here (prev_line hk h.here (by simp) hb)
  have hbody : f.Body E 0 := hf.body
  have hall : childIsAllowed f.data.kind .Transition = .ok true := by
    rcases hf with ⟨_, hf⟩ | ⟨_, t, l, st, hf, _⟩ <;> rw [hf] <;> rfl
  obtain ⟨d', q1, q2, q3⟩ := h.spine.pushed (data := .Transition) hall (by simp [Simple, NodeType.kind]) h.calm
  have hmove : t m s.ps = .ok (.neither, some 2) { s.ps with doc := d' } := by
    rw [hres]; unfold P.bind; rw [q1]; rfl
  obtain ⟨g, gs, hgs⟩ : ∃ g gs, r.gap = g :: gs := by
    cases h : r.gap with
    | nil => exact absurd h hr.2.1
    | cons g gs => exact ⟨g, gs, rfl⟩
  obtain ⟨ts, hts, hts'⟩ := hbody.table
  have hnq : f.st ≠ .BlockQuote := by
    rcases hf with ⟨h, _⟩ | ⟨h, _⟩ <;> rw [h] <;> simp
  have hle : 2 ≤ (r.line :: (r.gap ++ rest)).length := by rw [hgs]; simp
  have hstep := step_moved (h.stands hc) hts hbody.notEnd ((hts' _ ⟨rule_noBreak hr, fun e => absurd e hnq⟩).trans e3) hmove
    (stack := s.stack) rfl (k := 2) rfl (by omega) hle
  have hdrop : (r.line :: (r.gap ++ rest)).drop 2 = gs ++ rest := by rw [hgs]; rfl
  rw [hdrop] at hstep
  have h2 : Leads E S os s (f.add [.node .Transition []] :: fs) (gs ++ rest) 0 := by
    refine ⟨_, .step hstep, ⟨?_, q2, ?_, Nat.le_refl _, q3.trans h.secs⟩⟩
    · have e := drop_incr h.here 2
      rw [e]; exact hdrop
    · rw [h.stack_cons]; simp [stackFor, Frame.add]
  obtain ⟨s1, k1, k2⟩ := h2
  exact k1.leads (k2.blanks (hbody.add _).readable fun l hl => hr.2.2 l (by simp [hgs, hl]))

theorem Opens.add {lvl : Nat} {f : Frame} (h : Opens lvl f) (ss : List Shape) : Opens lvl (f.add ss) := h

theorem blankBefore_right {a b : List Str} (h : BlankBefore (a ++ b)) : BlankLast b := by
  obtain ⟨l, h1, h2⟩ := h
  intro x hx
  rw [List.getLast?_append, hx] at h1
  simp only [Option.some_or, Option.some.injEq] at h1
  subst h1; exact h2

theorem blankLast_right {a b : List Str} (h : BlankLast (a ++ b)) : BlankLast b := by
  intro x hx
  exact h x (by rw [List.getLast?_append, hx]; rfl)

theorem ruledLines_cons (x : Rule × Blocks) (more : List (Rule × Blocks)) (after : List Str) :
    ruledLines (x :: more) ++ after = x.1.line :: (x.1.gap ++ (x.2.lines 0 ++ (ruledLines more ++ after))) := by
  simp [ruledLines]

/-- The blocks between two titles, with the transitions between them. -/
theorem chapter_run {E : Env} {n : Nat} (h0 : E.baseIndent = 0) (hN : E.nested = parserOf n) {H C lvl : Nat} (hH : H ≤ 8) (hC : C ≤ 9) {S : SectionData}
    {fs : List Frame} {after : List Str} (hlow : Low 1 after) :
    ∀ (more : List (Rule × Blocks)) (B : Blocks) {f : Frame} {s : LoopState} {before : List Str} {k : Nat}, Opens lvl f → B.Ok →
      ruledOk (before ++ B.lines 0) more →
      (∀ b ∈ B :: more.map (·.2), (b.height ≤ H ∧ b.cost ≤ C) ∧ roundsBound (textSize (b.lines 0)) ≤ n) →
      BlankLast (tailLines (B.lines 0) more) ∨ Ends 0 after → E.src.drop k = before ++ (B.lines 0 ++ (ruledLines more ++ after)) →
      At E S [] s (f :: fs) (B.lines 0 ++ (ruledLines more ++ after)) 0 →
      ∃ ex ss, Leads E S [] s (ex ++ f.add ss :: fs) after 0 ∧ ss ++ shut [] ex = B.shapes 0 ++ ruledShapes more ∧
        (∀ e ∈ ex, Deep 0 e) ∧ headCost ex ≤ C := by
  intro more
  induction more with
  | nil =>
    intro B f s before k hf hB _ hall hblank _ h
    obtain ⟨⟨a1, a2⟩, a3⟩ := hall B (by simp)
    have e : ruledLines [] ++ after = after := rfl
    rw [e] at h
    obtain ⟨ex, ss, k1, k2, _, k4, k5⟩ := runs_blocks B (H := H) (C := C) (i := 0) (j := 0) (f := f) (fs := fs) (ex := []) ⟨by omega, hN⟩ hB a3
      (.inl h0) hblank hlow a1 hH a2 hf.body (fun e => by rcases hf with ⟨q, _⟩ | ⟨q, _⟩ <;> rw [q] at e <;> cases e) (by simp) (by simp)
      (fun _ => ⟨rfl, rfl⟩) (by simp) (by simp [headCost]) (by simp) (fun _ => rfl) h
    exact ⟨ex, ss, k1, by simpa [ruledShapes, shut] using k2, k4, k5⟩
  | cons x more ih =>
    intro B f s before k hf hB hruled hall hblank hsrc h
    obtain ⟨hbefore, hchar, hgap, hx, hmore⟩ := hruled
    have hr : RuleOk x.1 := ⟨hchar, hgap⟩
    obtain ⟨⟨a1, a2⟩, a3⟩ := hall B (by simp)
    rw [ruledLines_cons] at h hsrc
    obtain ⟨ex, ss, ⟨s1, k1, k2⟩, k3, _, k4, k5⟩ := runs_blocks B (H := H) (C := C) (i := 0) (j := 0) (f := f) (fs := fs) (ex := []) ⟨by omega, hN⟩ hB a3
      (.inl h0) (.inl (blankBefore_right hbefore)) (rule_low hr _) a1 hH a2 hf.body
      (fun e => by rcases hf with ⟨q, _⟩ | ⟨q, _⟩ <;> rw [q] at e <;> cases e) (by simp) (by simp)
      (fun _ => ⟨rfl, rfl⟩) (by simp) (by simp [headCost]) (by simp) (fun _ => rfl) h
    have hk : E.src.drop k = (before ++ B.lines 0) ++ x.1.line :: (x.1.gap ++ (x.2.lines 0 ++ (ruledLines more ++ after))) := by
      rw [hsrc]; simp
    obtain ⟨s2, k6, k7⟩ := k2.unwind_rule h0 hr hbefore hk ex.length ex rfl k4 (by omega)
    obtain ⟨s3, k8, k9⟩ := k7.rule hr hbefore hk (by omega) (lvl := lvl) ((hf.add _).add _)
    have hsrc' : E.src.drop (k + ((before ++ B.lines 0) ++ [x.1.line]).length) = x.1.gap ++ (x.2.lines 0 ++ (ruledLines more ++ after)) := by
      have e : (before ++ B.lines 0) ++ x.1.line :: (x.1.gap ++ (x.2.lines 0 ++ (ruledLines more ++ after))) =
          ((before ++ B.lines 0) ++ [x.1.line]) ++ (x.1.gap ++ (x.2.lines 0 ++ (ruledLines more ++ after))) := by simp
      rw [← List.drop_drop, hk, e, List.drop_left]
    have hb2 : BlankLast (tailLines (x.2.lines 0) more) ∨ Ends 0 after := by
      rcases hblank with hb | hb
      · refine .inl ?_
        cases more with
        | nil => exact blankLast_right hb
        | cons y more => exact hb
      · exact .inr hb
    obtain ⟨ex', ss', m1, m2, m3, m4⟩ := ih x.2 (((hf.add ss).add (shut [] ex)).add [.node .Transition []]) hx hmore
      (fun b hb => hall b (by simp only [List.map_cons, List.mem_cons] at hb ⊢; exact .inr hb)) hb2 hsrc' k9
    refine ⟨ex', ss ++ shut [] ex ++ [.node .Transition []] ++ ss', ?_, ?_, m3, m4⟩
    · rw [Frame.add_add, Frame.add_add, Frame.add_add] at m1
      have := ((k1.trans k6).trans k8).leads m1
      simpa [List.append_assoc] using this
    · rw [List.append_assoc, m2, k3]
      simp [ruledShapes, shut]

end Rustla
