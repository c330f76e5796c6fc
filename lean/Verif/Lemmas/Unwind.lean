import Verif.Lemmas.Tables
import Verif.Lemmas.Anchors
import Verif.Lemmas.Classes
import Verif.Lemmas.Columns
/-! # Sequences of blocks -/
namespace Rustla
open Spec

theorem starts_anchor {E : Env} (h0 : E.baseIndent = 0) {ts : List Target} (hne : ts ≠ []) (h : ∀ t ∈ ts, t.Ok) (i : Nat) (rest : List Str) :
    Starts E i none (targetsAt i ts ++ rest) := by
  obtain ⟨t, ts, rfl⟩ := List.exists_cons_of_ne_nil hne
  rw [targetsAt_cons]
  exact starts_target h0 (h t (by simp)) i _

theorem starts_part {E : Env} {X : Part} (h : X.Ok) (hflat : E.baseIndent = 0 ∨ X.Tidy) (hq : ¬ X.Bare) (i : Nat) (rest : List Str) :
    Starts E i none (X.lines i ++ rest) := by
  cases X with
  | anchored ts L gap =>
    simp only [Part.lines, List.append_assoc]
    exact starts_anchor (hflat.elim id (fun h => h.elim)) h.1 h.2.1 i _
  | anchoredText ts g ps gap =>
    simp only [Part.lines, List.append_assoc]
    exact starts_anchor (hflat.elim id (fun h => h.elim)) h.1 h.2.1 i _
  | bare => exact absurd trivial hq
  | quiz d a gap es => simp only [Part.lines, List.append_assoc]; exact starts_dir h.1 i _
  | columns d gap xs => simp only [Part.lines, List.append_assoc]; exact starts_dir h.1 i _
  | literal g ps gap V =>
    obtain ⟨ha, hg, hb, _⟩ := h
    simp only [Part.lines, List.append_assoc]
    refine starts_para ha.notEmpty ha.lines ha.noBreak fun l hl => ?_
    cases gap with
    | nil => exact absurd rfl hg
    | cons a gap => simp at hl; subst hl; exact .inl (hb _ (by simp))
  | table T => simp only [Part.lines, Table.lines, List.append_assoc]; exact starts_dir (Table.Ok.dir h) i _

theorem quizNode_earn (d : Dir) (a : Exercise) (p k : Nat) : addPoints p (quizNode d a 0 k) = quizNode d a p k := by
  simp [quizNode, addPoints]

/-- A part is read, and what it stands for is added to the open node. -/
theorem AtL.part {E : Env} {S : SectionData} {os : List Frame} {f : Frame} {fs : List Frame} {s : LoopState} {X : Part} {rest : List Str}
    {n i j c : Nat} (hE : Fits E n i j) (hflat : E.baseIndent = 0 ∨ X.Tidy) (h : At E S os s (f :: fs) (X.lines i ++ rest) c) (hc : c ≤ 9)
    (hf : f.Body E j) (hX : X.Ok) (hq : f.st = .BlockQuote → X.Undashed) (hr : Low (i + 1) rest)
    (hsz : roundsBound (textSize (X.lines i)) ≤ n) :
    ∃ ex ss, Leads E S os s (ex ++ f.add ss :: fs) rest 0 ∧ ss ++ shut [] ex = X.shapes j ∧ ex.length ≤ X.cost ∧
      ∀ e ∈ ex, Deep (j + 1) e := by
  cases X with
  | anchored ts L gap =>
    obtain ⟨hne, ht, hL, hg⟩ := hX
    have h0 : E.baseIndent = 0 := hflat.elim id (fun h => h.elim)
    obtain rfl : i = j := by have := hE.shift; omega
    have e1 : (Part.anchored ts L gap).lines i ++ rest = targetsAt i ts ++ (L.lines i ++ (gap ++ rest)) := by simp [Part.lines]
    rw [e1] at h
    obtain ⟨s1, k1, k2⟩ := AtL.targets h0 hf (by
      obtain ⟨l, ls, e, hl⟩ := leaf_front hL i
      rw [e]
      intro x hx
      obtain rfl : l = x := by simpa using hx
      exact .inr (Nat.le_of_eq hl.indent)) ts ht hne h hc
    rw [List.nil_append] at k2
    exact ⟨[], _, k1.leads (k2.leaf_targets hE.shift (by omega) hf hL hg hr), by simp [shut, Part.shapes], Nat.le_refl _, by simp⟩
  | anchoredText ts g ps gap =>
    obtain ⟨hne, ht, hp, hg, hb⟩ := hX
    have h0 : E.baseIndent = 0 := hflat.elim id (fun h => h.elim)
    obtain rfl : i = j := by have := hE.shift; omega
    have e1 : (Part.anchoredText ts g ps gap).lines i ++ rest = targetsAt i ts ++ (g.map (indentLine i) ++ (gap ++ rest)) := by simp [Part.lines]
    rw [e1] at h
    obtain ⟨s1, k1, k2⟩ := AtL.targets h0 hf (by
      obtain ⟨l, g', rfl⟩ := List.exists_cons_of_ne_nil hp.notEmpty
      obtain ⟨x, r, e, hx⟩ := hp.lines.1.toTextLine.cons
      intro y hy
      obtain rfl : indentLine i l = y := by simpa using hy
      rw [e]
      exact .inr (Nat.le_of_eq (indentOf_indented hx _))) ts ht hne h hc
    rw [List.nil_append] at k2
    obtain ⟨s2, k3, k4⟩ := k2.paragraph_targets hE.shift (by omega) hf hp hq (ends_gap hb fun e => absurd e hg)
    obtain ⟨s3, k5, k6⟩ := k4.blanks (hf.add _).readable hb
    exact ⟨[], _, ⟨s3, (k1.trans k3).trans k5, k6⟩, by simp [shut, Part.shapes, labelFirst, paragraphShape], Nat.le_refl _, by simp⟩
  | quiz d a gap es =>
    obtain ⟨hd, hkey, harg, ha, hg, hb, hne, he⟩ := hX
    have h0 : E.baseIndent = 0 := hflat.elim id (fun h => h.elim)
    obtain rfl : i = j := by have := hE.shift; omega
    have e1 : (Part.quiz d a gap es).lines i ++ rest = d.lines i ++ (gap ++ (es.flatMap (Entry.lines (i + 3)) ++ rest)) := by
      simp [Part.lines]
    rw [e1] at h
    obtain ⟨e, es', rfl⟩ := List.exists_cons_of_ne_nil hne
    obtain ⟨x, t, ls, e2, hx⟩ := entry_front (he e (by simp)) (i + 3)
    have e3 : (e :: es').flatMap (Entry.lines (i + 3)) ++ rest = (spaces (i + 3) ++ x :: t) :: (ls ++ (es'.flatMap (Entry.lines (i + 3)) ++ rest)) := by
      rw [List.flatMap_cons, e2]; simp
    rw [e3] at h
    obtain ⟨s1, k1, k2⟩ := h.quiz h0 hc hf hd hkey harg ha hg hb (indented_not_blank hx _) (indentOf_indented hx _)
    rw [← e3] at k2
    obtain ⟨s2, k3, k4⟩ := k2.entries h0 (hr.mono (by omega)) he ⟨rfl, rfl, rfl⟩
    refine ⟨[(Frame.earn ⟨.AplusQuestionnaire, quizNode d a 0 (i + 3), [], []⟩ ((e :: es').map Entry.points).sum).add ((e :: es').map (Entry.shape (i + 3)))], [],
      ⟨s2, k1.trans k3, by rw [Frame.add_nil]; exact k4⟩, ?_, Nat.le_refl _, ?_⟩
    · simp only [shut, Frame.add, Frame.earn, quizNode_earn, Part.shapes, List.nil_append, List.append_nil]
      rfl
    · intro y hy
      obtain rfl := List.mem_singleton.mp hy
      refine .inl ⟨.inr rfl, i + 3, ?_, by omega⟩
      show (addPoints _ (quizNode d a 0 (i + 3))).bodyIndent = _
      rw [addPoints_indent]; rfl
  | columns d gap xs =>
    have h0 : E.baseIndent = 0 := hflat.elim id (fun h => h.elim)
    obtain rfl : i = j := by have := hE.shift; omega
    refine ⟨[boxFrame (.poi d) i (xs.flatMap (Flow.shapes (i + 3)))], [], by rw [Frame.add_nil]; exact h.columns h0 hc hf hX hr,
      by simp [shut, Part.shapes, Frame.shape, Shape.node, Frame.labels, ownLabels_box, Box.kids], Nat.le_refl _, ?_⟩
    intro y hy
    obtain rfl := List.mem_singleton.mp hy
    exact .inl ⟨.inl (blocky_box (.poi d)), i + 3, bodyIndent_box (.poi d) i, by omega⟩
  | literal g ps gap V =>
    obtain ⟨ha, hg, hb, hV⟩ := hX
    have h0 : E.baseIndent = 0 := hflat.elim id (fun h => h.elim)
    obtain rfl : i = j := by have := hE.shift; omega
    have e1 : (Part.literal g ps gap V).lines i ++ rest = g.map (indentLine i) ++ (gap ++ (V.lines i ++ rest)) := by
      simp [Part.lines]
    rw [e1] at h
    obtain ⟨s1, k1, k2⟩ := h.announce (by omega) hc hf ha hq (by
      intro l hl
      cases gap with
      | nil => exact absurd rfl hg
      | cons a gap => simp at hl; subst hl; exact .inl (hb _ (by simp)))
    obtain ⟨s2, k3, k4⟩ := k2.blanks hb
    obtain ⟨s3, k5, k6⟩ := k4.block h0 (hf.add _) hV hr
    rw [Frame.add_add] at k6
    exact ⟨[], [paragraphShape i ps, V.shape], ⟨s3, (k1.trans k3).trans k5, k6⟩, by simp [shut, Part.shapes], Nat.le_refl _, by simp⟩
  | bare gap V =>
    obtain ⟨hg, hb, hV⟩ := hX
    have h0 : E.baseIndent = 0 := hflat.elim id (fun h => h.elim)
    obtain rfl : i = j := by have := hE.shift; omega
    have e1 : (Part.bare gap V).lines i ++ rest = indentLine i (str! "::") :: (gap ++ (V.lines i ++ rest)) := by
      simp [Part.lines]
    rw [e1] at h
    obtain ⟨s1, k1, k2⟩ := h.bare h0 hc hf (by
      obtain ⟨b, gap, rfl⟩ := List.exists_cons_of_ne_nil hg
      exact ⟨b, _, rfl, hb b (by simp)⟩)
    obtain ⟨s2, k3, k4⟩ := k2.blanks hb
    obtain ⟨s3, k5, k6⟩ := k4.block h0 hf hV hr
    exact ⟨[], [V.shape], ⟨s3, (k1.trans k3).trans k5, k6⟩, by simp [shut, Part.shapes], Nat.le_refl _, by simp⟩
  | table T =>
    have h0 : E.baseIndent = 0 := hflat.elim id (fun h => h.elim)
    obtain rfl : i = j := by have := hE.shift; omega
    have := AtL.table hE.nested h0 h hc hf hX (hr.mono (by omega)) hsz
    refine ⟨[_], [], by rw [Frame.add_nil]; exact this, ?_, Nat.le_refl _, ?_⟩
    · simp only [shut, List.nil_append, List.append_nil]
      rfl
    · intro y hy
      obtain rfl := List.mem_singleton.mp hy
      exact .inr ⟨i + 3, Listed.table .., by omega⟩

theorem headCost_le (ex : List Frame) : headCost ex ≤ ex.length := List.countP_le_length

theorem runs_part {X : Part} {rest : Blocks} (hrun : RunsBlocks rest) : RunsBlocks (.part X rest) := by
  intro E S os n i j H C f fs ex after s c hE hB hsz hflat ha hlow hh hH hC hf hun hdeep _ hbare hex hcnt hc _ h
  obtain ⟨hX, hquo, hrest⟩ := hB
  have hhI : X.cost ≤ H ∧ rest.height ≤ H := by simp only [Blocks.height] at hh; omega
  have hcI : X.cost ≤ C ∧ rest.cost ≤ C := by simp only [Blocks.cost] at hC; omega
  have e1 : Blocks.lines i (.part X rest) ++ after = X.lines i ++ (rest.lines i ++ after) := by
    simp [Blocks.lines]
  rw [e1] at h
  obtain ⟨s1, k1, k2⟩ : Leads E S os s (f.add (shut [] ex) :: fs) (X.lines i ++ (rest.lines i ++ after)) (c + ex.length) := by
    by_cases hb : X.Bare
    · obtain ⟨rfl, rfl⟩ := hbare hb
      exact ⟨s, .refl _ _, by simpa [shut, Frame.add_nil] using h⟩
    · exact h.unwind hE.shift (starts_part hX (hflat.imp id (·.1)) hb i _) ex.length ex rfl (fun e he => (hdeep e he).shuts_para) (by omega)
  obtain ⟨ex1, ss1, ⟨s2, k3, k4⟩, k5, k6, k7⟩ := k2.part hE (hflat.imp id (·.1)) (by omega) (hf.add _) hX (fun e => (hun e).1) (low_blocks hrest hquo hlow)
    (rounds_part hsz (by simp only [Blocks.lines, textSize_append]; omega))
  rw [Frame.add_add] at k4
  obtain ⟨ex', ss, m1, m2, m3, m4⟩ := hrun (H := H) (C := C) (ex := ex1) hE hrest
    (rounds_part hsz (by simp only [Blocks.lines, textSize_append]; omega)) (hflat.imp id (·.2))
    (ha.imp (fun h => BlankLast.right h) id) hlow hhI.2 hH hcI.2 (hf.add _) (fun e => (hun e).2) (fun e he => (k7 e he).mono (by omega))
    (fun b _ e he => (k7 e he).shuts (by omega) _) (fun e => absurd e hquo) (by omega) (by have := headCost_le ex1; omega) (by omega)
    (fun _ => rfl) k4
  refine ⟨ex', shut [] ex ++ ss1 ++ ss, ?_, ?_, m3, m4⟩
  · rw [Frame.add_add] at m1
    exact (k1.trans k3).leads m1
  · rw [List.append_assoc, m2, ← List.append_assoc, List.append_assoc (shut [] ex), k5, List.append_assoc]
    simp [Blocks.shapes]

/-- A line with a larger indentation opens a block quote. -/
theorem AtL.enter_quote {E : Env} {S : SectionData} {os : List Frame} {s : LoopState} {f : Frame} {fs : List Frame} {lines : List Str}
    {c i j q : Nat} {b : Option Tag} (hij : i + E.baseIndent = q) (h : At E S os s (f :: fs) lines c) (hc : c ≤ 9) (hf : f.Body E j)
    (hs : Starts E i b lines) (hj : j < q) : Leads E S os s (quoteFrame q [] :: f :: fs) lines (c + 1) := by
  obtain ⟨x, r, ls, rfl, hx⟩ := hs.visible
  obtain ⟨ts, ht, hts⟩ := hf.table
  obtain ⟨m, tr, act, e1, e2⟩ := hs.acts h.here ht hts
  have e3 := atIndent_high (k := i + E.baseIndent) h.spine hf.indent (by omega) act
  obtain ⟨d', k1, k2, k3⟩ := h.spine.push (data := .BlockQuote q) .BlockQuote (hf.kids .BlockQuote (by decide)) simple_quote rfl rfl h.calm
  have hres : tr m s.ps = .ok (.push [.BlockQuote], none) { s.ps with doc := d' } := by
    rw [e2, e3, hij]
    simp only [enterQuote, bind, P.bind, k1, pure, P.pure]
  have := step_stays (h.stands hc) ht hf.notEnd e1 hres rfl (stack := s.stack ++ [.BlockQuote]) rfl
  refine ⟨_, .step this, ⟨h.here, k2, ?_, ?_, k3.trans h.secs⟩⟩
  · simp [h.stack_cons, stackFor]
  · have := h.count; simp only; omega

/-- The first term of a definition list. -/
theorem starts_defs {E : Env} {D : Defs} (h : D.Ok) (hne : D ≠ .nil) {i : Nat} {after : List Str} : Starts E i none (D.lines i ++ after) := by
  cases D with
  | nil => exact absurd rfl hne
  | term t body rest =>
    obtain ⟨ht, hb, hq, hbody, _⟩ := h
    have e : Defs.lines i (.term t body rest) ++ after = indentLine i t.text :: (body.lines (i + (t.deep + 1)) ++ (rest.lines i ++ after)) := by
      simp [Defs.lines]
    rw [e]
    exact .para ht.line ht.noBreak (ends_blocks (j := i + (t.deep + 1) + 1) (by omega) hbody hb hq).not_line

/-- The first block of a sequence that does not start with a block quote. -/
theorem starts_blocks {E : Env} {B : Blocks} (h : B.Ok) (hflat : E.baseIndent = 0 ∨ B.Tidy) (hne : B ≠ .nil) (hq : ¬ B.quoted) {i : Nat} {after : List Str}
    (ha : BlankLast (B.lines i) ∨ Ends i after) : ∃ b, Starts E i b (B.lines i ++ after) := by
  cases B with
  | nil => exact absurd rfl hne
  | para g ps gap rest =>
    obtain ⟨hp, hgap, hnil, hrest⟩ := h
    refine ⟨none, ?_⟩
    have hends : Ends i (gap ++ (rest.lines i ++ after)) := ends_gap hgap fun e => by
      rw [hnil e] at ha ⊢
      subst e
      rcases ha with ha | ha
      · exact absurd (by simpa [Blocks.lines] using ha) (para_not_blankLast (i := i) hp.notEmpty hp.lines)
      · exact ha
    have := starts_para (E := E) (i := i) hp.notEmpty hp.lines hp.noBreak hends
    simpa [Blocks.lines] using this
  | list items rest =>
    obtain ⟨hne, hI, _, _, hnum, _⟩ := h
    cases items with
    | nil => exact absurd rfl hne
    | item m g ps gap body rest' =>
      have := starts_items (E := E) (i := i) (after := rest.lines i ++ after) hI (list_numbered hnum ha)
      exact ⟨some m, by simpa [Blocks.lines, Items.lines] using this⟩
  | leaf L gap rest =>
    have := starts_leaf (E := E) h.1 i (gap ++ (rest.lines i ++ after))
    exact ⟨none, by simpa [Blocks.lines] using this⟩
  | box X gap body rest =>
    have := starts_dir (E := E) (box_dir h.1) i (gap ++ (body.lines (i + 3) ++ (rest.lines i ++ after)))
    exact ⟨none, by simpa [Blocks.lines] using this⟩
  | classed d gap body rest =>
    have := starts_dir (E := E) h.1 i (gap ++ (body.lines (i + 3) ++ (rest.lines i ++ after)))
    exact ⟨none, by simpa [Blocks.lines] using this⟩
  | anchor ts X gap body rest =>
    have := starts_anchor (hflat.elim id (fun h => h.elim)) h.1.1 h.1.2 i (X.dir.lines i ++ (gap ++ (body.lines (i + 3) ++ (rest.lines i ++ after))))
    exact ⟨none, by simpa [Blocks.lines] using this⟩
  | part X rest =>
    have := starts_part (E := E) h.1 (hflat.imp id (·.1)) hq i (rest.lines i ++ after)
    exact ⟨none, by simpa [Blocks.lines] using this⟩
  | quote k body sign rest => exact absurd trivial hq
  | defs D rest =>
    have := starts_defs (E := E) (i := i) (after := rest.lines i ++ after) h.2.1 h.1
    exact ⟨none, by simpa [Blocks.lines] using this⟩
  | note N g ps gap body rest =>
    obtain ⟨hN, hp, _⟩ := h
    match g, hp.notEmpty with
    | l :: ls, _ =>
      have := starts_note (E := E) hN hp.lines.1.toTextLine i (ls.map (indentLine (i + N.wide)) ++ (gap ++ (body.lines (i + N.wide) ++ (rest.lines i ++ after))))
      exact ⟨none, by simpa [Blocks.lines, Note.lines] using this⟩
  | aside name g ps gap body rest =>
    obtain ⟨ha, hp, _⟩ := h
    match g, hp.notEmpty with
    | l :: ls, _ =>
      have := starts_dir (E := E) (asideDir_ok ha hp.lines.1) i (ls.map (indentLine (i + 3)) ++ (gap ++ (body.lines (i + 3) ++ (rest.lines i ++ after))))
      exact ⟨none, by simpa [Blocks.lines, asideLines_cons hp.lines.1.toTextLine] using this⟩

/-- The lines of an attribution look like a paragraph. -/
theorem starts_signature {E : Env} {s : Signature} (h : s.Ok) {q : Nat} {rest : List Str}
    (hr : s.after = [] → s.more = [] → ∀ n, rest.head? = some n → reLine.isMatch n = false) : Starts E q none (s.lines q ++ rest) := by
  have e : s.lines q ++ rest = indentLine q s.first :: (s.more.map (indentLine (q + s.deep)) ++ (s.after ++ rest)) := by simp [Signature.lines]
  rw [e]
  refine .para h.firstLine h.noBreak fun n hn => ?_
  cases hm : s.more with
  | cons x xs =>
    rw [hm] at hn
    obtain rfl : indentLine (q + s.deep) x = n := by simpa using hn
    exact (h.more x (by rw [hm]; simp)).indented_not_line _
  | nil =>
    rw [hm] at hn
    cases ha : s.after with
    | nil => rw [ha] at hn; exact hr ha hm n (by simpa using hn)
    | cons x xs =>
      rw [ha] at hn
      obtain rfl : x = n := by simpa using hn
      exact blank_not_line (h.blank x (by rw [ha]; simp))

theorem runs_quote {k : Nat} {body rest : Blocks} {sign : Option Signature} (hbodyRun : RunsBlocks body) (hrun : RunsBlocks rest) :
    RunsBlocks (.quote k body sign rest) := by
  intro E S os n i j H C f fs ex after s c hE hB hsz hflat ha hlow hh hH hC hf hun hdeep _ hquo hex hcnt hc _ h
  obtain ⟨hne, hnq, hund, hbody, hrq, hsign, hrest⟩ := hB
  obtain ⟨rfl, rfl⟩ := hquo trivial
  have hhI : body.height + 1 ≤ H ∧ rest.height ≤ H := by simp only [Blocks.height] at hh; omega
  have hcI : body.cost + 1 ≤ C ∧ rest.cost ≤ C := by simp only [Blocks.cost] at hC; omega
  have e1 : Blocks.lines i (.quote k body sign rest) ++ after =
      body.lines (i + (k + 1)) ++ (signLines (i + (k + 1)) sign ++ (rest.lines i ++ after)) := by
    simp [Blocks.lines]
  rw [e1] at h
  simp only [List.nil_append] at h
  have hq : i + (k + 1) + E.baseIndent = j + (k + 1) := by have := hE.shift; omega
  have hmore : BlankLast (body.lines (i + (k + 1))) ∨ Ends (i + (k + 1)) (signLines (i + (k + 1)) sign ++ (rest.lines i ++ after)) := by
    cases sign with
    | some t => exact .inl (blankLast_move (hsign t rfl).2.1 _)
    | none =>
      by_cases hr : rest = .nil
      · subst hr
        refine ha.imp (fun h => ?_) (fun h => ?_)
        · simpa [Blocks.lines, signLines] using h
        · exact h.mono (by omega)
      · exact .inr (ends_blocks (by omega) hrest hr (hrq rfl))
  have hlow1 : Low (i + (k + 1) + 1) (signLines (i + (k + 1)) sign ++ (rest.lines i ++ after)) := by
    cases sign with
    | none => exact (low_blocks hrest (hrq rfl) hlow).mono (by omega)
    | some t =>
      intro l hl
      obtain rfl : indentLine (i + (k + 1)) t.first = l := by simpa [signLines, Signature.lines] using hl
      obtain ⟨x, r, e, hx⟩ := (hsign t rfl).1.firstLine.toTextLine.cons
      rw [e]
      exact ⟨indented_not_blank hx _, by rw [show indentOf (indentLine (i + (k + 1)) (x :: r)) = i + (k + 1) from indentOf_indented hx _]; omega⟩
  obtain ⟨b, hst⟩ := starts_blocks hbody (hflat.imp id (·.1)) hne hnq hmore
  obtain ⟨s1, k1, k2⟩ := h.enter_quote hq (by omega) hf hst (by omega)
  obtain ⟨ex1, ss1, ⟨s2, k3, k4⟩, k5, k6, k7, k8⟩ := hbodyRun (H := H - 1) (C := C - 1) (ex := []) (hE.more (k + 1)) hbody
    (rounds_part hsz (by simp only [Blocks.lines, textSize_append]; omega)) (hflat.imp id (·.1)) hmore hlow1 (by omega) (by omega) (by omega)
    (quoteFrame_body E (j + (k + 1)) []) (fun _ => hund) (by simp) (by simp) (fun e => absurd e hnq) (by simp) (by simp [headCost])
    (by simp) (fun e => absurd e hne) k2
  simp only [shut, List.nil_append] at k5
  have e2 : (quoteFrame (j + (k + 1)) []).add ss1 = quoteFrame (j + (k + 1)) ss1 := by simp [Frame.add]
  rw [e2] at k4
  cases sign with
  | none =>
    simp only [signLines, List.nil_append] at k4
    have e3 : ex1 ++ quoteFrame (j + (k + 1)) ss1 :: f :: fs = (ex1 ++ [quoteFrame (j + (k + 1)) ss1]) ++ f :: fs := by simp
    rw [e3] at k4
    have hdeep2 : ∀ e ∈ ex1 ++ [quoteFrame (j + (k + 1)) ss1], Deep j e ∧ ∀ b, Shuts j b e := by
      intro e he
      rcases List.mem_append.mp he with he | he
      · exact ⟨(k7 e he).mono (by omega), fun b => (k7 e he).shuts (by omega) b⟩
      · obtain rfl := List.mem_singleton.mp he
        have : (quoteFrame (j + (k + 1)) ss1).st.deep := .inl (by simp [State.blocky])
        exact ⟨.inl ⟨this, j + (k + 1), rfl, by omega⟩, fun b => .inl ⟨this, j + (k + 1), rfl, by omega⟩⟩
    obtain ⟨ex', ss, m1, m2, m3, m4⟩ := hrun (H := H) (C := C) hE hrest
      (rounds_part hsz (by simp only [Blocks.lines, textSize_append]; omega)) (hflat.imp id (·.2.2))
      (ha.imp (fun h => BlankLast.right h) id) hlow hhI.2 hH hcI.2 hf hun (fun e he => (hdeep2 e he).1)
      (fun b _ e he => (hdeep2 e he).2 _) (fun e => absurd e (hrq rfl))
      (by simp only [List.length_append, List.length_cons, List.length_nil]; omega)
      (by rw [headCost_append]; have := headCost_one (quoteFrame (j + (k + 1)) ss1); omega)
      (by simp only [List.length_append, List.length_cons, List.length_nil]; omega) (fun _ => rfl) k4
    refine ⟨ex', ss, (k1.trans k3).leads m1, ?_, m3, m4⟩
    rw [m2, shut_append]
    simp only [k5, Blocks.shapes, signShapes, List.append_nil, shut, List.nil_append]
    rfl
  | some t =>
    have h0 : E.baseIndent = 0 := hflat.elim id (fun h => by cases h.2.1)
    obtain rfl : i = j := by have := hE.shift; omega
    obtain ⟨ht, hbl, hnil⟩ := hsign t rfl
    simp only [signLines] at k4
    have hstart : Starts E (i + (k + 1)) none (t.lines (i + (k + 1)) ++ (rest.lines i ++ after)) := by
      refine starts_signature ht fun h1 h2 => ?_
      obtain rfl := hnil h1
      rcases ha with ha | ha
      · exfalso
        have ha := ha (indentLine (i + (k + 1)) t.first) (by simp [Blocks.lines, signLines, Signature.lines, h1, h2])
        obtain ⟨x, r, e, hx⟩ := ht.firstLine.toTextLine.cons
        rw [e, show isBlank (indentLine (i + (k + 1)) (x :: r)) = false from indented_not_blank hx _] at ha
        cases ha
      · exact ha.not_line
    obtain ⟨s3, m1, m2⟩ := AtL.unwind (f := quoteFrame (i + (k + 1)) ss1) (fs := f :: fs) hq hstart ex1.length ex1 rfl
      (fun e he => (k7 e he).shuts_para) k4 (by omega)
    have e4 : (quoteFrame (i + (k + 1)) ss1).add (shut [] ex1) = quoteFrame (i + (k + 1)) (body.shapes (i + (k + 1))) := by
      simp only [Frame.add, k5]
    rw [e4] at m2
    obtain ⟨s4, m3, m4⟩ := m2.attribution h0 (by omega) ht (by omega) (fun e => by
      obtain rfl := hnil e
      exact hlow.mono (by omega))
    obtain ⟨s5, m5, m6⟩ := m4.blanks (hf.add _).readable ht.blank
    obtain ⟨ex', ss, n1, n2, n3, n4⟩ := hrun (H := H) (C := C) (ex := []) hE hrest
      (rounds_part hsz (by simp only [Blocks.lines, textSize_append]; omega)) (.inl h0)
      (ha.imp (fun h => BlankLast.right h) id) hlow hhI.2 hH hcI.2 (hf.add _) hun (by simp) (by simp) (by simp) (by simp) (by simp [headCost])
      (by simp) (fun _ => rfl) m6
    refine ⟨ex', [.node (.BlockQuote (i + (k + 1))) (body.shapes (i + (k + 1)) ++ [.node (.Attribution t.author) []])] ++ ss, ?_, ?_, n3, n4⟩
    · rw [Frame.add_add] at n1
      exact ((((k1.trans k3).trans m1).trans m3).trans m5).leads n1
    · rw [List.append_assoc, n2]
      simp [shut, Blocks.shapes, signShapes]

theorem runs_no_defs : RunsDefs .nil := by
  intro E S os n i H ss0 fs ex after s c _ _ _ _ _ _ _ _ hdeep hex _ hc h
  obtain rfl := hc rfl
  exact ⟨ex, ss0, h.leads, by simp [Defs.shapes], hex, hdeep⟩

theorem runs_term {t : Term} {body : Blocks} {rest : Defs} (hbodyRun : RunsBlocks body) (hrun : RunsDefs rest) : RunsDefs (.term t body rest) := by
  intro E S os n i H ss0 fs ex after s c hE hD hsz h0 ha hlow hh hH hdeep hex hc _ h
  have hstart := starts_defs (E := E) (i := i) (after := after) hD (by simp)
  obtain ⟨ht, hne, hq, hbody, hrest⟩ := hD
  have hhI : body.height + 1 ≤ H ∧ rest.height ≤ H := by simp only [Defs.height] at hh; omega
  obtain ⟨s1, k1, k2⟩ := h.unwind hE.shift hstart ex.length ex rfl (fun e he => (hdeep e he).shuts_para) (by omega)
  obtain ⟨l, ls, e, hl⟩ := blocks_front hbody hne hq (i + (t.deep + 1))
  have e1 : Defs.lines i (.term t body rest) ++ after = indentLine i t.text :: (body.lines (i + (t.deep + 1)) ++ (rest.lines i ++ after)) := by
    simp [Defs.lines]
  rw [e1] at k2
  have e4 : body.lines (i + (t.deep + 1)) ++ (rest.lines i ++ after) = l :: (ls ++ (rest.lines i ++ after)) := by rw [e]; rfl
  rw [e4] at k2
  obtain ⟨s2, k3, k4⟩ := AtL.term h0 k2 (by omega) ht hl
  rw [← e4] at k4
  have hends : BlankLast (body.lines (i + (t.deep + 1))) ∨ Ends (i + (t.deep + 1)) (rest.lines i ++ after) := by
    by_cases hr : rest = .nil
    · subst hr
      refine ha.imp (fun h => ?_) (fun h => h.mono (by omega))
      rw [Defs.lines, Defs.lines, List.append_nil, ← List.singleton_append] at h
      exact BlankLast.right h
    · exact .inr (ends_defs (by omega) hrest hr)
  obtain ⟨ex1, ss1, ⟨s3, k5, k6⟩, k7, k8, k9, _⟩ := hbodyRun (H := H - 1) (C := body.cost) (ex := []) (hE.more (t.deep + 1)) hbody
    (rounds_part hsz (by simp only [Defs.lines, textSize_cons, textSize_append]; omega)) (.inl h0) hends ((low_defs hrest hlow).mono (by omega)) (by omega)
    (by omega) (Nat.le_refl _) (termFrame_body E t i []) (fun e => by cases e) (by simp) (by simp) (fun e => absurd e hq) (by simp) (by simp [headCost])
    (by simp) (fun _ => rfl) k4
  have e2 : (termFrame t i []).add ss1 = termFrame t i ss1 := by simp [Frame.add]
  rw [e2] at k6
  have e3 : ex1 ++ termFrame t i ss1 :: defsFrame i ((defsFrame i ss0).done ++ shut [] ex) :: fs =
      (ex1 ++ [termFrame t i ss1]) ++ defsFrame i (ss0 ++ shut [] ex) :: fs := by
    simp
  rw [e3] at k6
  have hdeep2 : ∀ e ∈ ex1 ++ [termFrame t i ss1], Deep i e := by
    intro e he
    rcases List.mem_append.mp he with he | he
    · exact (k9 e he).mono (by omega)
    · obtain rfl := List.mem_singleton.mp he
      exact .inl ⟨.inl (.inl rfl), i + (t.deep + 1), rfl, by omega⟩
  obtain ⟨ex', ss, m1, m2, m3, m4⟩ := hrun (H := H) hE hrest (rounds_part hsz (by simp only [Defs.lines, textSize_cons, textSize_append]; omega)) h0
    (ha.imp (fun h => by
      rw [Defs.lines, ← List.cons_append] at h
      exact BlankLast.right h) id) hlow hhI.2 hH hdeep2
    (by simp only [List.length_append, List.length_cons, List.length_nil]; omega)
    (by simp only [List.length_append, List.length_cons, List.length_nil]; omega) (fun _ => rfl) k6
  refine ⟨ex', ss, ((k1.trans k3).trans k5).leads m1, ?_, m3, m4⟩
  rw [m2, shut_append]
  simp only [shut, List.nil_append] at k7
  simp only [k7, Defs.shapes, List.append_assoc, List.singleton_append]
  rfl

theorem runs_definitions {D : Defs} {rest : Blocks} (hdefs : RunsDefs D) (hrun : RunsBlocks rest) : RunsBlocks (.defs D rest) := by
  intro E S os n i j H C f fs ex after s c hE hB hsz hflat ha hlow hh hH hC hf hun hdeep _ _ hex hcnt hc _ h
  obtain ⟨hne, hD, hsp, hrest⟩ := hB
  have h0 : E.baseIndent = 0 := hflat.elim id (fun h => h.elim)
  obtain rfl : i = j := by have := hE.shift; omega
  have hhI : D.height + 1 ≤ H ∧ rest.height ≤ H := by simp only [Blocks.height] at hh; omega
  have hcI : rest.cost ≤ C := hC
  obtain ⟨g, ps, gap, rest', rfl⟩ : ∃ g ps gap rest', rest = .para g ps gap rest' := by
    cases rest <;> first | exact ⟨_, _, _, _, rfl⟩ | exact hsp.elim
  replace hsp : gap.head? = some [] := hsp
  have hrest' := hrest
  obtain ⟨hp, hgap, hnil, _⟩ := hrest'
  have e1 : Blocks.lines i (.defs D (.para g ps gap rest')) ++ after = D.lines i ++ (Blocks.lines i (.para g ps gap rest') ++ after) := by
    simp [Blocks.lines]
  rw [e1] at h
  obtain ⟨s1, k1, k2⟩ := h.unwind hE.shift (starts_defs hD hne) ex.length ex rfl (fun e he => (hdeep e he).shuts_para) (by omega)
  -- the list is opened
  have hopen : Leads E S os s1 (defsFrame i [] :: f.add (shut [] ex) :: fs) (D.lines i ++ (Blocks.lines i (.para g ps gap rest') ++ after)) (c + ex.length + 1) := by
    cases D with
    | nil => exact absurd rfl hne
    | term t body more =>
      obtain ⟨ht, hbne, hbq, hbody, _⟩ := hD
      obtain ⟨l, ls, e, hl⟩ := blocks_front hbody hbne hbq (i + (t.deep + 1))
      have e2 : Defs.lines i (.term t body more) ++ (Blocks.lines i (.para g ps gap rest') ++ after) =
          indentLine i t.text :: l :: (ls ++ (more.lines i ++ (Blocks.lines i (.para g ps gap rest') ++ after))) := by
        simp [Defs.lines, e]
      rw [e2] at k2 ⊢
      exact AtL.open_defs h0 k2 (by omega) (hf.add _) ht.line ht.noBreak (fun e => (hun e).1) hl
  obtain ⟨s2, k3, k4⟩ := hopen
  have hquo : ¬ (Blocks.para g ps gap rest').quoted := id
  obtain ⟨ex1, ss1, ⟨s3, k5, k6⟩, k7, k8, k9⟩ := hdefs (H := H - 1) (ss0 := []) (ex := []) hE hD
    (rounds_part hsz (by simp only [Blocks.lines, textSize_append]; omega)) h0 (.inr (ends_blocks (by omega) hrest (by simp) hquo))
    (low_blocks hrest hquo hlow) (by omega) (by omega) (by simp) (by simp) (by simp; omega) (fun e => absurd e hne) k4
  have hends : Ends i (gap ++ (rest'.lines i ++ after)) := ends_gap hgap fun e => by rw [e] at hsp; cases hsp
  have e2 : Blocks.lines i (.para g ps gap rest') ++ after = g.map (indentLine i) ++ (gap ++ (rest'.lines i ++ after)) := by
    simp [Blocks.lines]
  rw [e2] at k6
  -- the paragraph closes the list
  obtain ⟨s4, k10, k11⟩ := AtL.unwind hE.shift (starts_para hp.notEmpty hp.lines hp.noBreak hends) ex1.length ex1 rfl
    (fun e he => (k9 e he).shuts_para) k6 (by omega)
  have e3 : (defsFrame i ss1).add (shut [] ex1) = defsFrame i (D.shapes i) := by
    simp only [Frame.add, k7, shut, List.nil_append]
  rw [e3] at k11
  have hleave : Leads E S os s4 ((f.add (shut [] ex)).add [.node (.DefinitionList i) (D.shapes i)] :: fs)
      (g.map (indentLine i) ++ (gap ++ (rest'.lines i ++ after))) (0 + ex1.length + 1) := by
    cases g with
    | nil => exact absurd rfl hp.notEmpty
    | cons l g =>
      refine AtL.leave_defs (ls := g.map (indentLine i) ++ (gap ++ (rest'.lines i ++ after))) k11 (by omega) hp.lines.1 fun x hx => ?_
      cases g with
      | nil =>
        cases gap with
        | nil => cases hsp
        | cons y gap =>
          obtain rfl : y = [] := by simpa using hsp
          obtain rfl : [] = x := by simpa using hx
          simp [indentOf]
      | cons l' g =>
        obtain rfl : indentLine i l' = x := by simpa using hx
        rw [(front_text (hp.lines.2 l' (by simp)) i).indent]
  obtain ⟨s5, k12, k13⟩ := hleave
  rw [← e2, Frame.add_add] at k13
  obtain ⟨ex', ss, m1, m2, m3, m4⟩ := hrun (H := H) (C := C) (ex := []) hE hrest
    (rounds_part hsz (by simp only [Blocks.lines, textSize_append]; omega)) (.inl h0)
    (ha.imp (fun h => BlankLast.right h) id) hlow hhI.2 hH hcI (hf.add _) (fun e => (hun e).2) (by simp) (by simp) (fun e => absurd e hquo) (by simp) (by simp [headCost])
    (by simp only [List.length_nil]; omega) (fun e => by cases e) k13
  refine ⟨ex', shut [] ex ++ [.node (.DefinitionList i) (D.shapes i)] ++ ss, ?_, ?_, m3, m4⟩
  · rw [Frame.add_add] at m1
    exact ((((k1.trans k3).trans k5).trans k10).trans k12).leads m1
  · rw [List.append_assoc, m2]
    simp [Blocks.shapes, shut]

theorem blocky_note (N : Note) : (noteState N).blocky := by
  unfold noteState; cases N.foot <;> simp [State.blocky]

theorem noteFrame_unquoted (N : Note) {i : Nat} {ss : List Shape} {P : Prop} : (noteFrame N i ss).st = .BlockQuote → P := by
  intro e
  have e : noteState N = .BlockQuote := e
  unfold noteState at e
  cases hfo : N.foot <;> rw [hfo] at e <;> cases e

theorem find_visible {l : Str} {gap ls : List Str} (hg : ∀ x ∈ gap, isBlank x = true) (hl : isBlank l = false) :
    (gap ++ l :: ls).find? (fun l => !isBlank l) = some l := by
  induction gap with
  | nil => simp [hl]
  | cons a gap ih =>
    rw [List.cons_append, List.find?_cons_of_neg (by simp [hg a (by simp)])]
    exact ih fun x hx => hg x (by simp [hx])

/-- What follows the first line of a note tells the indentation of its contents. -/
theorem tells_note {N : Note} {i : Nat} {l : Str} {ls gap after : List Str} {body : Blocks} (hN : N.Ok ((l :: ls).length = 1 ∧ body = .nil))
    (hls : ∀ x ∈ ls, TextLine x) (hg : ∀ x ∈ gap, isBlank x = true) (hbody : body.Ok) (hq : ¬ body.quoted) (hlow : Low (i + 1) after) :
    Tells i N (ls.map (indentLine (i + N.wide)) ++ (gap ++ (body.lines (i + N.wide) ++ after))) := by
  unfold Tells
  cases ls with
  | cons x ls =>
    have hx := front_text (hls x (by simp)) (i + N.wide)
    have := find_visible (gap := []) (ls := ls.map (indentLine (i + N.wide)) ++ (gap ++ (body.lines (i + N.wide) ++ after))) (by simp) hx.not_blank
    simp only [List.nil_append] at this
    rw [List.map_cons, List.cons_append, this]
    exact .inl ⟨hx.indent, hN.wide⟩
  | nil =>
    by_cases hb : body = .nil
    · have hw := hN.alone ⟨rfl, hb⟩
      subst hb
      cases after with
      | nil =>
        have : (([] : List Str).map (indentLine (i + N.wide)) ++ (gap ++ (Blocks.lines (i + N.wide) .nil ++ []))).find? (fun l => !isBlank l) = none := by
          rw [List.find?_eq_none]
          intro x hx
          simp only [List.map_nil, List.nil_append, Blocks.lines, List.append_nil] at hx
          simp [hg x hx]
        rw [this]; exact hw
      | cons y after =>
        obtain ⟨h1, h2⟩ := hlow y rfl
        have := find_visible (ls := after) hg h1
        rw [show ([] : List Str).map (indentLine (i + N.wide)) ++ (gap ++ (Blocks.lines (i + N.wide) .nil ++ y :: after)) = gap ++ y :: after by
          simp [Blocks.lines], this]
        exact .inr ⟨by omega, hw⟩
    · obtain ⟨y, ys, e, hy⟩ := blocks_front hbody hb hq (i + N.wide)
      have := find_visible (ls := ys ++ after) hg hy.not_blank
      rw [e, show ([] : List Str).map (indentLine (i + N.wide)) ++ (gap ++ (y :: ys ++ after)) = gap ++ y :: (ys ++ after) by simp, this]
      exact .inl ⟨hy.indent, hN.wide⟩

theorem runs_note {N : Note} {g : List Str} {ps : List Piece} {gap : List Str} {body rest : Blocks} (hbodyRun : RunsBlocks body) (hrun : RunsBlocks rest) :
    RunsBlocks (.note N g ps gap body rest) := by
  intro E S os n i j H C f fs ex after s c hE hB hsz hflat ha hlow hh hH hC hf hun hdeep _ _ hex hcnt hc _ h
  obtain ⟨hN, hp, hgap, hnil, hquo1, hbody, hquo, hrest⟩ := hB
  have h0 : E.baseIndent = 0 := hflat.elim id (fun h => h.elim)
  obtain rfl : i = j := by have := hE.shift; omega
  have hhI : body.height + 1 ≤ H ∧ rest.height ≤ H := by simp only [Blocks.height] at hh; omega
  have hcI : body.cost + 1 ≤ C ∧ rest.cost ≤ C := by simp only [Blocks.cost] at hC; omega
  have e1 : Blocks.lines i (.note N g ps gap body rest) ++ after = N.lines i g ++ (gap ++ (body.lines (i + N.wide) ++ (rest.lines i ++ after))) := by
    simp [Blocks.lines]
  rw [e1] at h
  have hend : BlankLast (N.lines i g ++ gap ++ body.lines (i + N.wide)) ∨ Ends (i + 1) (rest.lines i ++ after) := by
    by_cases hr : rest = .nil
    · subst hr
      refine ha.imp (fun h => ?_) (fun h => h.mono (by omega))
      rw [Blocks.lines, Blocks.lines, List.append_nil] at h
      exact h
    · exact .inr (ends_blocks (by omega) hrest hr hquo)
  have hends : Ends (i + N.wide) (gap ++ (body.lines (i + N.wide) ++ (rest.lines i ++ after))) := ends_gap hgap fun e => by
    rw [hnil e] at hend ⊢
    subst e
    rcases hend with h | h
    · exact absurd (by simpa [Blocks.lines] using h) (note_not_blankLast (i := i) hp.notEmpty hp.lines)
    · exact h.mono (by have := hN.wide; omega)
  have hends1 : BlankLast (body.lines (i + N.wide)) ∨ Ends (i + N.wide) (rest.lines i ++ after) :=
    hend.imp (fun h => BlankLast.right h) (fun h => h.mono (by have := hN.wide; omega))
  have hlow1 := low_blocks hrest hquo hlow
  obtain ⟨r, rfl⟩ : ∃ r, n = r + 1 := ⟨n - 1, by have := lt_roundsBound (textSize (Blocks.lines i (.note N g ps gap body rest))); omega⟩
  match g, hp.notEmpty with
  | l :: ls, _ =>
    have e2 : N.lines i (l :: ls) ++ (gap ++ (body.lines (i + N.wide) ++ (rest.lines i ++ after))) =
        indentLine i (N.text ++ l) :: (ls.map (indentLine (i + N.wide)) ++ (gap ++ (body.lines (i + N.wide) ++ (rest.lines i ++ after)))) := by
      simp [Note.lines]
    rw [e2] at h
    obtain ⟨s1, k1, k2⟩ := h.unwind hE.shift (starts_note hN hp.lines.1.toTextLine i _) ex.length ex rfl (fun e he => (hdeep e he).shuts_para)
      (by omega)
    obtain ⟨s2, k3, k4⟩ := AtL.note (r := r) (N := N) (l := l) (ls := ls) (rest := gap ++ (body.lines (i + N.wide) ++ (rest.lines i ++ after))) h0 hE.nested (by
        refine Nat.le_trans (roundsBound_mono ?_) hsz
        have : textSize (l :: ls) ≤ textSize (N.lines i (l :: ls)) := by
          simp only [Note.lines, textSize_cons]
          have h1 : l.length ≤ (indentLine i (N.text ++ l)).length := by simp [indentLine]; omega
          have h2 : textSize ls ≤ textSize (ls.map (indentLine (i + N.wide))) := by
            have := textSize_map_le (f := (·.drop (i + N.wide))) (fun l => by simp) (ls.map (indentLine (i + N.wide)))
            rwa [indents_drop] at this
          omega
        simp only [Blocks.lines, textSize_append]; omega) k2 (by omega) (hf.add _) hN hp hends
      (tells_note hN hp.lines.2 hgap hbody hquo1 hlow1)
    obtain ⟨s3, k5, k6⟩ := k4.blanks (noteFrame_body E N i [paragraphShape (i + N.wide) ps]).readable hgap
    obtain ⟨ex1, ss1, ⟨s4, k7, k8⟩, k9, k10, k11, k12⟩ := hbodyRun (H := H - 1) (C := C - 1) (ex := []) (hE.more N.wide) hbody
      (rounds_part hsz (by simp only [Blocks.lines, textSize_append]; omega)) (.inl h0) hends1 (hlow1.mono (by omega)) (by omega) (by omega) (by omega)
      (noteFrame_body E N i [paragraphShape (i + N.wide) ps]) (noteFrame_unquoted N) (by simp) (by simp) (fun e => absurd e hquo1) (by simp)
      (by simp [headCost]) (by simp) (fun _ => rfl) k6
    have e4 : (noteFrame N i [paragraphShape (i + N.wide) ps]).add ss1 = noteFrame N i (paragraphShape (i + N.wide) ps :: ss1) := by simp [Frame.add]
    rw [e4] at k8
    have e3 : ex1 ++ noteFrame N i (paragraphShape (i + N.wide) ps :: ss1) :: f.add (shut [] ex) :: fs =
        (ex1 ++ [noteFrame N i (paragraphShape (i + N.wide) ps :: ss1)]) ++ f.add (shut [] ex) :: fs := by
      simp
    rw [e3] at k8
    have hdeep2 : ∀ e ∈ ex1 ++ [noteFrame N i (paragraphShape (i + N.wide) ps :: ss1)], Deep i e ∧ ∀ b, Shuts i b e := by
      have hw := hN.wide
      intro e he
      rcases List.mem_append.mp he with he | he
      · exact ⟨(k11 e he).mono (by omega), fun b => (k11 e he).shuts (by omega) b⟩
      · obtain rfl := List.mem_singleton.mp he
        have : (noteFrame N i (paragraphShape (i + N.wide) ps :: ss1)).st.deep := .inl (blocky_note N)
        exact ⟨.inl ⟨this, i + N.wide, bodyIndent_note N i, by omega⟩, fun b => .inl ⟨this, i + N.wide, bodyIndent_note N i, by omega⟩⟩
    obtain ⟨ex', ss, m1, m2, m3, m4⟩ := hrun (H := H) (C := C) hE hrest
      (rounds_part hsz (by simp only [Blocks.lines, textSize_append]; omega)) (.inl h0)
      (ha.imp (fun h => BlankLast.right h) id) hlow hhI.2 hH hcI.2 (hf.add _) hun (fun e he => (hdeep2 e he).1)
      (fun b _ e he => (hdeep2 e he).2 _) (fun e => absurd e hquo)
      (by simp only [List.length_append, List.length_cons, List.length_nil]; omega)
      (by rw [headCost_append]; have := headCost_one (noteFrame N i (paragraphShape (i + N.wide) ps :: ss1)); omega)
      (by simp only [List.length_append, List.length_cons, List.length_nil]; omega) (fun _ => rfl) k8
    refine ⟨ex', shut [] ex ++ ss, ?_, ?_, m3, m4⟩
    · rw [Frame.add_add] at m1
      exact (((k1.trans k3).trans k5).trans k7).leads m1
    · rw [List.append_assoc, m2, shut_append]
      simp only [shut, List.nil_append] at k9
      simp only [List.cons_append, k9, Frame.labels, ownLabels_note, List.nil_append]
      simp [Blocks.shapes]

/-- The paragraph behind the marker and the other blocks of an admonition. -/
theorem aside_body {E : Env} {S : SectionData} {os : List Frame} {n i H C : Nat} {f : Frame} {fs : List Frame} {s : LoopState}
    {name : Str} {g : List Str} {ps : List Piece} {gap rest' : List Str} {body : Blocks} (hrun : RunsBlocks body) (h0 : E.baseIndent = 0)
    (hN : E.nested = parserOf n) (hA : AsideOk name g) (hp : Para g ps) (hg : gap ≠ []) (hb : ∀ l ∈ gap, l = [])
    (hne : g.length = 1 → body ≠ .nil) (htidy : body.Tidy) (hquo : ¬ body.quoted) (hbody : body.Ok)
    (hsz : roundsBound (textSize (asideLines i name g ++ gap ++ body.lines (i + 3))) ≤ n)
    (hlow : Low (i + 1) rest') (hh : body.height ≤ H) (hH : H ≤ 8)
    (hC : body.cost ≤ C) (hf : f.Body E i) {c : Nat} (hc : c ≤ 9)
    (h : At E S os s (f :: fs) (asideLines i name g ++ (gap ++ (body.lines (i + 3) ++ rest'))) c) :
    ∃ ex' ss, Leads E S os s (ex' ++ boxFrame (.note ⟨name, [], []⟩) i ss :: f :: fs) rest' 0 ∧
      ss ++ shut [] ex' = paragraphShape (i + 3) ps :: body.shapes (i + 3) ∧
      ex'.length ≤ H ∧ (∀ e ∈ ex', Deep (i + 3) e) ∧ headCost ex' ≤ C := by
  obtain ⟨m, rfl⟩ : ∃ m, n = m + 1 := ⟨n - 1, by have := lt_roundsBound (textSize (asideLines i name g ++ gap ++ body.lines (i + 3))); omega⟩
  have hb' : ∀ l ∈ gap, isBlank l = true := fun x hx => by rw [hb x hx]; rfl
  match g, hp.notEmpty with
  | l :: ls, _ =>
    have hdrop : (body.lines (i + 3)).map (·.drop (i + 3)) = body.lines 0 := map_drop_blocks hbody htidy (i + 3) 0
    have hsz1 : textSize (l :: ls) < textSize (asideLines i name (l :: ls)) := by
      simp only [asideLines, textSize_cons]
      have h1 : l.length < (indentLine i (str! ".. " ++ name ++ str! ":: " ++ l)).length := by simp [indentLine]; omega
      have h2 : textSize ls ≤ textSize (ls.map (indentLine (i + 3))) := by
        have := textSize_map_le (f := (·.drop (i + 3))) (fun l => by simp) (ls.map (indentLine (i + 3)))
        rwa [indents_drop] at this
      omega
    have hsz0 : roundsBound (textSize (Blocks.lines 0 (.para (l :: ls) ps gap body))) ≤ m := by
      have h1 : textSize (body.lines 0) ≤ textSize (body.lines (i + 3)) := by
        rw [← hdrop]; exact textSize_map_le (fun l => by simp) _
      have h3 := roundsBound_lt (a := textSize (Blocks.lines 0 (.para (l :: ls) ps gap body)))
        (b := textSize (asideLines i name (l :: ls) ++ gap ++ body.lines (i + 3)))
        (by simp only [Blocks.lines, textSize_append, indentLine_zero]; omega)
      omega
    have hok : Blocks.Ok (.para (l :: ls) ps gap body) := ⟨hp, hb', fun e => absurd e hg, hbody⟩
    obtain ⟨frames, ⟨ex', ss, rfl, k4, k5, k6, k7⟩, k8⟩ := AtL.aside (Q := fun frames => ∃ ex' ss,
        frames = ex' ++ [boxFrame (.note ⟨name, [], []⟩) i ss] ∧
        ss ++ shut [] ex' = paragraphShape (i + 3) ps :: body.shapes (i + 3) ∧ ex'.length ≤ H ∧ (∀ e ∈ ex', Deep (i + 3) e) ∧ headCost ex' ≤ C)
      (m := m) h0 hN h hc hf hA hp.lines.1 hg hb (by
        cases ls with
        | cons => exact .inl (by simp)
        | nil =>
          obtain ⟨y, ys, e, hy⟩ := blocks_front hbody (hne rfl) hquo (i + 3)
          exact .inr ⟨y, ys, e, hy.not_blank, hy.indent⟩) (fun l hl => (within_blocks hbody (i + 3) l hl).indent) hlow
      (rounds_part hsz (by simp only [textSize_append]; omega)) (by
        intro d line level hsp hnotes
        rw [hdrop]
        have hinit := AtL.init (E := ⟨l :: ls ++ (gap ++ body.lines 0), i + 3, parserOf m⟩) (f := boxFrame (.note ⟨name, [], []⟩) i [])
          (os := f :: fs ++ os) hsp hnotes (by simp) line level
        have k2 : At ⟨l :: ls ++ (gap ++ body.lines 0), i + 3, parserOf m⟩ S (f :: fs ++ os) (LoopState.init d line .Admonition level)
            ([] ++ [boxFrame (.note ⟨name, [], []⟩) i []]) (Blocks.lines 0 (.para (l :: ls) ps gap body) ++ []) 0 := by
          rw [List.append_nil, Blocks.lines, indentLine_zero, List.append_assoc]; exact hinit
        obtain ⟨ex', ss, k3, k4, k5, k6, k7⟩ := runs_para (g := l :: ls) (ps := ps) (gap := gap) hrun (H := H) (C := C) (ex := []) (i := 0) (j := i + 3) (fs := []) (after := [])
          ⟨by simp, rfl⟩ hok hsz0 (.inr ⟨hb, htidy⟩) (.inr fun x hx => by cases hx) (fun x hx => by cases hx) hh hH hC
          (boxFrame_body ⟨l :: ls ++ (gap ++ body.lines 0), i + 3, parserOf m⟩ (.note ⟨name, [], []⟩) i []) (boxFrame_unquoted _) (by simp) (by simp) (by simp) (by simp)
          (by simp [headCost]) (by simp) (fun _ => rfl) k2
        rw [boxFrame_add] at k3
        exact ⟨_, ⟨ex', ss, rfl, by simpa [shut, Blocks.shapes] using k4, k5, k6, k7⟩, k3⟩)
    refine ⟨ex', ss, ?_, k4, k5, k6, k7⟩
    have e3 : ex' ++ [boxFrame (.note ⟨name, [], []⟩) i ss] ++ f :: fs = ex' ++ boxFrame (.note ⟨name, [], []⟩) i ss :: f :: fs := by simp
    rw [e3] at k8
    exact k8

theorem runs_aside {name : Str} {g : List Str} {ps : List Piece} {gap : List Str} {body rest : Blocks} (hbodyRun : RunsBlocks body) (hrun : RunsBlocks rest) :
    RunsBlocks (.aside name g ps gap body rest) := by
  intro E S os n i j H C f fs ex after s c hE hB hsz hflat ha hlow hh hH hC hf hun hdeep _ _ hex hcnt hc _ h
  obtain ⟨hA, hp, hgne, hgap, hne, htidy, hquo1, hbody, hquo, hrest⟩ := hB
  have h0 : E.baseIndent = 0 := hflat.elim id (fun h => h.elim)
  obtain rfl : i = j := by have := hE.shift; omega
  have hhI : body.height + 1 ≤ H ∧ rest.height ≤ H := by simp only [Blocks.height] at hh; omega
  have hcI : body.cost + 1 ≤ C ∧ rest.cost ≤ C := by simp only [Blocks.cost] at hC; omega
  have e1 : Blocks.lines i (.aside name g ps gap body rest) ++ after = asideLines i name g ++ (gap ++ (body.lines (i + 3) ++ (rest.lines i ++ after))) := by
    simp [Blocks.lines]
  rw [e1] at h
  have hstart : Starts E i none (asideLines i name g ++ (gap ++ (body.lines (i + 3) ++ (rest.lines i ++ after)))) := by
    match g, hp.notEmpty with
    | l :: ls, _ =>
      rw [asideLines_cons hp.lines.1.toTextLine, List.append_assoc]
      exact starts_dir (asideDir_ok hA hp.lines.1) i _
  obtain ⟨s1, k1, k2⟩ := h.unwind hE.shift hstart ex.length ex rfl (fun e he => (hdeep e he).shuts_para)
    (by omega)
  obtain ⟨ex1, ss1, ⟨s2, k3, k4⟩, k5, k6, k7, k8⟩ := aside_body (H := H - 1) (C := C - 1) hbodyRun h0 hE.nested hA hp hgne hgap hne htidy hquo1 hbody
    (rounds_part hsz (by simp only [Blocks.lines, textSize_append]; omega)) (low_blocks hrest hquo hlow) (by omega) (by omega) (by omega)
    (hf.add _) (by omega) k2
  generalize hX : (Box.note ⟨name, [], []⟩) = X at k4
  have e3 : ex1 ++ boxFrame X i ss1 :: f.add (shut [] ex) :: fs = (ex1 ++ [boxFrame X i ss1]) ++ f.add (shut [] ex) :: fs := by
    simp
  rw [e3] at k4
  have hdeep2 : ∀ e ∈ ex1 ++ [boxFrame X i ss1], Deep (i + 1) e := by
    intro e he
    rcases List.mem_append.mp he with he | he
    · exact (k7 e he).mono (by omega)
    · obtain rfl := List.mem_singleton.mp he
      exact .inl ⟨.inl (blocky_box X), i + 3, bodyIndent_box X i, by omega⟩
  obtain ⟨ex', ss, m1, m2, m3, m4⟩ := hrun (H := H) (C := C) hE hrest
    (rounds_part hsz (by simp only [Blocks.lines, textSize_append]; omega)) (.inl h0)
    (ha.imp (fun h => BlankLast.right h) id) hlow hhI.2 hH hcI.2 (hf.add _) hun (fun e he => (hdeep2 e he).mono (by omega))
    (fun b _ e he => (hdeep2 e he).shuts (by omega) _) (fun e => absurd e hquo)
    (by simp only [List.length_append, List.length_cons, List.length_nil]; omega)
    (by rw [headCost_append]; have := headCost_one (boxFrame X i ss1); omega)
    (by simp only [List.length_append, List.length_cons, List.length_nil]; omega) (fun _ => rfl) k4
  refine ⟨ex', shut [] ex ++ ss, ?_, ?_, m3, m4⟩
  · rw [Frame.add_add] at m1
    exact (k1.trans k3).leads m1
  · rw [List.append_assoc, m2, shut_append]
    simp only [List.append_assoc, k5, Frame.labels, ownLabels_box, List.append_nil]
    rw [← hX]
    simp [Blocks.shapes, Box.kids]
    rfl

theorem runs_anchor {ts : List Target} {X : Box} {gap : List Str} {body rest : Blocks} (hbodyRun : RunsBlocks body) (hrun : RunsBlocks rest) :
    RunsBlocks (.anchor ts X gap body rest) := by
  intro E S os n i j H C f fs ex after s c hE hB hsz hflat ha hlow hh hH hC hf hun hdeep _ _ hex hcnt hc _ h
  obtain ⟨⟨htne, ht⟩, hX, hap, hgne, hgap, hne, hquo1, hbody, hquo, hrest⟩ := hB
  have h0 : E.baseIndent = 0 := hflat.elim id (fun h => h.elim)
  obtain rfl : i = j := by have := hE.shift; omega
  have hhI : body.height + 1 ≤ H ∧ rest.height ≤ H := by simp only [Blocks.height] at hh; omega
  have hcI : body.cost + 1 ≤ C ∧ rest.cost ≤ C := by simp only [Blocks.cost] at hC; omega
  have e1 : Blocks.lines i (.anchor ts X gap body rest) ++ after = targetsAt i ts ++ (X.dir.lines i ++ (gap ++ (body.lines (i + 3) ++ (rest.lines i ++ after)))) := by
    simp [Blocks.lines]
  rw [e1] at h
  have hends : BlankLast (body.lines (i + 3)) ∨ Ends (i + 3) (rest.lines i ++ after) := by
    by_cases hr : rest = .nil
    · subst hr
      refine ha.imp (fun h => ?_) (fun h => h.mono (by omega))
      rw [Blocks.lines, Blocks.lines, List.append_nil] at h
      exact BlankLast.right h
    · exact .inr (ends_blocks (by omega) hrest hr hquo)
  obtain ⟨s1, k1, k2⟩ := h.unwind hE.shift (starts_anchor h0 htne ht i _) ex.length ex rfl (fun e he => (hdeep e he).shuts_para)
    (by omega)
  obtain ⟨s1', k1', k2'⟩ := AtL.targets h0 (hf.add _) (by
    intro x hx
    obtain rfl : indentLine i X.dir.marker = x := by simpa [Dir.lines] using hx
    exact .inr (Nat.le_of_eq (front_dir (box_dir hX) i).indent)) ts ht htne k2 (by omega)
  rw [List.nil_append] at k2'
  obtain ⟨ex1, ss1, ⟨s2, k3, k4⟩, k5, k6, k7, k8⟩ := anchor_body (H := H - 1) (C := C - 1) hbodyRun h0 hE.nested hX hap hgne hgap hne hquo1 hbody
    (rounds_part hsz (by simp only [Blocks.lines, textSize_append]; omega)) hends (low_blocks hrest hquo hlow) (by omega) (by omega) (by omega)
    (hf.add _) (by omega) k2'
  have e3 : ex1 ++ anchorFrame (ts.map Target.label) X i ss1 :: f.add (shut [] ex) :: fs = (ex1 ++ [anchorFrame (ts.map Target.label) X i ss1]) ++ f.add (shut [] ex) :: fs := by
    simp
  rw [e3] at k4
  have hdeep2 : ∀ e ∈ ex1 ++ [anchorFrame (ts.map Target.label) X i ss1], Deep (i + 1) e := by
    intro e he
    rcases List.mem_append.mp he with he | he
    · exact (k7 e he).mono (by omega)
    · obtain rfl := List.mem_singleton.mp he
      exact .inl ⟨.inl (blocky_box X), i + 3, bodyIndent_box X i, by omega⟩
  obtain ⟨ex', ss, m1, m2, m3, m4⟩ := hrun (H := H) (C := C) hE hrest
    (rounds_part hsz (by simp only [Blocks.lines, textSize_append]; omega)) (.inl h0)
    (ha.imp (fun h => BlankLast.right h) id) hlow hhI.2 hH hcI.2 (hf.add _) hun (fun e he => (hdeep2 e he).mono (by omega))
    (fun b _ e he => (hdeep2 e he).shuts (by omega) _) (fun e => absurd e hquo)
    (by simp only [List.length_append, List.length_cons, List.length_nil]; omega)
    (by rw [headCost_append]; have := headCost_one (anchorFrame (ts.map Target.label) X i ss1); omega)
    (by simp only [List.length_append, List.length_cons, List.length_nil]; omega) (fun _ => rfl) k4
  refine ⟨ex', shut [] ex ++ ss, ?_, ?_, m3, m4⟩
  · rw [Frame.add_add] at m1
    exact ((k1.trans k1').trans k3).leads m1
  · rw [List.append_assoc, m2, shut_append]
    simp only [List.append_assoc, k5, Frame.labels, ownLabels_box, List.append_nil]
    simp [Blocks.shapes]

/-- The blocks of the directive `class` are read twice. -/
theorem runs_classed {d : Dir} {gap : List Str} {body rest : Blocks} (hbodyRun : RunsBlocks body) (hrun : RunsBlocks rest) :
    RunsBlocks (.classed d gap body rest) := by
  intro E S os n i j H C f fs ex after s c hE hB hsz hflat ha hlow hh hH hC hf hun hdeep _ _ hex hcnt hc _ h
  obtain ⟨hd, hkey, harg, hopts, hgne, hgap, hne, htidy, hfirst, hquo1, hbody, hquo, hrest⟩ := hB
  have h0 : E.baseIndent = 0 := hflat.elim id (fun h => h.elim)
  obtain rfl : i = j := by have := hE.shift; omega
  have hhI : body.height + 1 ≤ H ∧ rest.height ≤ H := by simp only [Blocks.height] at hh; omega
  have hcI : body.cost + 1 ≤ C ∧ rest.cost ≤ C := by simp only [Blocks.cost] at hC; omega
  have e1 : Blocks.lines i (.classed d gap body rest) ++ after = d.lines i ++ (gap ++ (body.lines (i + 3) ++ (rest.lines i ++ after))) := by
    simp [Blocks.lines]
  rw [e1] at h
  have hends : BlankLast (body.lines (i + 3)) ∨ Ends (i + 3) (rest.lines i ++ after) := by
    by_cases hr : rest = .nil
    · subst hr
      refine ha.imp (fun h => ?_) (fun h => h.mono (by omega))
      rw [Blocks.lines, Blocks.lines, List.append_nil] at h
      exact BlankLast.right h
    · exact .inr (ends_blocks (by omega) hrest hr hquo)
  have hlow' : Low (i + 1) (rest.lines i ++ after) := low_blocks hrest hquo hlow
  obtain ⟨s1, k1, k2⟩ := h.unwind hE.shift (starts_dir hd i _) ex.length ex rfl (fun e he => (hdeep e he).shuts_para) (by omega)
  obtain ⟨l, ls, e, hl⟩ := blocks_front hbody hne hquo1 (i + 3)
  have hsz1 : roundsBound (textSize (d.lines i ++ gap ++ body.lines (i + 3))) ≤ n :=
    rounds_part hsz (by simp only [Blocks.lines, textSize_append]; omega)
  obtain ⟨m, rfl⟩ : ∃ m, n = m + 1 := ⟨n - 1, by have := lt_roundsBound (textSize (d.lines i ++ gap ++ body.lines (i + 3))); omega⟩
  have hdrop : (body.lines (i + 3)).map (·.drop (i + 3)) = body.lines 0 := map_drop_blocks hbody htidy (i + 3) 0
  have hsz0 : roundsBound (textSize (body.lines 0)) ≤ m := by
    have h1 : textSize (body.lines 0) ≤ textSize (body.lines (i + 3)) := by
      rw [← hdrop]; exact textSize_map_le (fun l => by simp) _
    have h2 : 0 < textSize (d.lines i) := by
      simp only [Dir.lines, textSize_cons]; omega
    have h3 := roundsBound_lt (a := textSize (body.lines 0)) (b := textSize (d.lines i ++ gap ++ body.lines (i + 3)))
      (by simp only [textSize_append]; omega)
    omega
  -- the nested parser reads the blocks
  obtain ⟨frames, ⟨ex0, ss0, rfl, k4, k5, k6, k7⟩, s2, k8, k9⟩ := AtL.classed (Q := fun frames => ∃ ex' ss, frames = ex' ++ [classFrame d i ss] ∧
      ss ++ shut [] ex' = body.shapes (i + 3) ∧ ex'.length ≤ H - 1 ∧ (∀ e ∈ ex', Deep (i + 3) e) ∧ headCost ex' ≤ C - 1) (m := m) h0 hE.nested k2
    (by omega) (hf.add _) hd hkey harg hopts hgne hgap ⟨l, ls, e, hl.not_blank, hl.indent⟩ (fun l hl => (within_blocks hbody (i + 3) l hl).indent) hlow'
    (rounds_part hsz1 (by simp only [textSize_append]; omega)) (by
      intro g d' line level hg' hsp hnotes
      rw [hdrop]
      have hne' : g ++ body.lines 0 ≠ [] := by
        obtain ⟨l, ls, e, _⟩ := blocks_front hbody hne hquo1 0
        rw [e]; simp
      have hinit := AtL.init (E := ⟨g ++ body.lines 0, i + 3, parserOf m⟩) (f := classFrame d i []) (os := f.add (shut [] ex) :: fs ++ os) hsp hnotes hne' line level
      obtain ⟨s1, k1, k2⟩ := AtL.blanks (classFrame_body ⟨g ++ body.lines 0, i + 3, parserOf m⟩ d i []).readable hg' hinit
      have k2 : At ⟨g ++ body.lines 0, i + 3, parserOf m⟩ S (f.add (shut [] ex) :: fs ++ os) s1 ([] ++ [classFrame d i []]) (body.lines 0 ++ []) 0 := by
        rw [List.append_nil]; exact k2
      obtain ⟨ex', ss, k3, k4, k5, k6, k7⟩ := hbodyRun (H := H - 1) (C := C - 1) (ex := []) (i := 0) (j := i + 3) (fs := []) (after := []) ⟨by simp, rfl⟩ hbody
        hsz0 (.inr htidy) (.inr fun x hx => by cases hx) (fun x hx => by cases hx) (by omega) (by omega) (by omega)
        (classFrame_body ⟨g ++ body.lines 0, i + 3, parserOf m⟩ d i []) (by intro e; cases e) (by simp) (by simp) (by simp) (by simp) (by simp [headCost]) (by simp) (fun _ => rfl) k2
      rw [classFrame_add, List.nil_append] at k3
      exact ⟨_, ⟨ex', ss, rfl, by simpa [shut] using k4, k5, k6, k7⟩, k1.leads k3⟩)
  -- the blank lines are read again
  have k10 : Leads E S os s2 (ex0 ++ classFrame d i ss0 :: f.add (shut [] ex) :: fs) (body.lines (i + 3) ++ (rest.lines i ++ after)) 0 := by
    cases ex0 with
    | nil => exact k9.blanks (classFrame_body E d i ss0).readable hgap
    | cons e0 ex0 =>
      have := k9.blanks (f := e0) (fs := ex0 ++ [classFrame d i ss0] ++ f.add (shut [] ex) :: fs) (k6 e0 (by simp)).readable hgap
      simpa using this
  obtain ⟨s3, k11, k12⟩ := k10
  -- and the blocks
  obtain ⟨ex1, ss1, ⟨s4, p1, p2⟩, p3, p4, p5, p6⟩ := hbodyRun (H := H - 1) (C := C - 1) (ex := ex0) (j := i + 3) ⟨by omega, hE.nested⟩ hbody
    (rounds_part hsz1 (by simp only [textSize_append]; omega)) (.inl h0) hends (hlow'.mono (by omega)) (by omega) (by omega) (by omega)
    (classFrame_body E d i ss0) (by intro e; cases e) k6 (by rw [hfirst]; intro m hm; cases hm) (fun h => absurd h hquo1) k5 k7 (by omega) (fun _ => rfl) k12
  rw [classFrame_add] at p2
  have e3 : ex1 ++ classFrame d i (ss0 ++ ss1) :: f.add (shut [] ex) :: fs = (ex1 ++ [classFrame d i (ss0 ++ ss1)]) ++ f.add (shut [] ex) :: fs := by
    simp
  rw [e3] at p2
  have hdeep2 : ∀ e ∈ ex1 ++ [classFrame d i (ss0 ++ ss1)], Deep (i + 1) e := by
    intro e he
    rcases List.mem_append.mp he with he | he
    · exact (p5 e he).mono (by omega)
    · obtain rfl := List.mem_singleton.mp he
      exact .inl ⟨.inl (by simp [State.blocky]), i + 3, rfl, by omega⟩
  obtain ⟨ex', ss, m1, m2, m3, m4⟩ := hrun (H := H) (C := C) hE hrest
    (rounds_part hsz (by simp only [Blocks.lines, textSize_append]; omega)) (.inl h0)
    (ha.imp (fun h => BlankLast.right h) id) hlow hhI.2 hH hcI.2 (hf.add _) hun (fun e he => (hdeep2 e he).mono (by omega))
    (fun b _ e he => (hdeep2 e he).shuts (by omega) _) (fun e => absurd e hquo)
    (by simp only [List.length_append, List.length_cons, List.length_nil]; omega)
    (by rw [headCost_append]; have := headCost_one (classFrame d i (ss0 ++ ss1)); omega)
    (by simp only [List.length_append, List.length_cons, List.length_nil]; omega) (fun _ => rfl) p2
  refine ⟨ex', shut [] ex ++ ss, ?_, ?_, m3, m4⟩
  · rw [Frame.add_add] at m1
    exact ((((k1.trans k8).trans k11).trans p1)).leads m1
  · have hall : ss0 ++ (ss1 ++ shut [] ex1) = body.shapes (i + 3) ++ body.shapes (i + 3) := by
      rw [p3, ← List.append_assoc, k4]
    rw [List.append_assoc, m2, shut_append]
    have hown : ownLabels (NodeType.Class (i + 3) [d.arg]) = [] := rfl
    simp only [List.append_assoc, hall, Frame.labels, hown, List.append_nil]
    simp [Blocks.shapes]

mutual
/-- A sequence of blocks in an open node. -/
theorem runs_blocks : ∀ B : Blocks, RunsBlocks B
  | .nil => runs_nil
  | .para _ _ _ rest => runs_para (runs_blocks rest)
  | .list items rest => runs_list (runs_items items) (runs_blocks rest)
  | .leaf _ _ rest => runs_leaf (runs_blocks rest)
  | .box _ _ body rest => runs_box (runs_blocks body) (runs_blocks rest)
  | .classed _ _ body rest => runs_classed (runs_blocks body) (runs_blocks rest)
  | .anchor _ _ _ body rest => runs_anchor (runs_blocks body) (runs_blocks rest)
  | .part _ rest => runs_part (runs_blocks rest)
  | .quote _ body _ rest => runs_quote (runs_blocks body) (runs_blocks rest)
  | .defs D rest => runs_definitions (runs_defs D) (runs_blocks rest)
  | .note _ _ _ _ body rest => runs_note (runs_blocks body) (runs_blocks rest)
  | .aside _ _ _ _ body rest => runs_aside (runs_blocks body) (runs_blocks rest)
/-- Items of an open list. -/
theorem runs_items : ∀ I : Items, RunsItems I
  | .nil => runs_no_items
  | .item _ _ _ _ body rest => runs_item (runs_blocks body) (runs_items rest)
/-- Terms of an open definition list. -/
theorem runs_defs : ∀ D : Defs, RunsDefs D
  | .nil => runs_no_defs
  | .term _ body rest => runs_term (runs_blocks body) (runs_defs rest)
end

end Rustla
