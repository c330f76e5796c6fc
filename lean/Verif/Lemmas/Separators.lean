import Verif.Lemmas.Unwind
/-! # Empty comments -/
namespace Rustla
open Spec

/-- The match of an empty comment. -/
def dotsMatch (i : Nat) : Match := ⟨spaces i ++ str! "..", [], [(.g1, spaces i)]⟩

theorem dots_captures (i : Nat) : reComment.captures (indentLine i (str! "..")) = some (dotsMatch i) := by
  have e : indentLine i (str! "..") = (spaces i ++ str! "..") ++ [] := by unfold indentLine; simp
  have key : ∀ q, q ∈ reComment.run (indentLine i (str! "..")) [] ↔ q = (([] : Str), [(.g1, spaces i)]) := by
    intro q
    have e' : indentLine i (str! "..") = spaces i ++ '.' :: ['.'] := rfl
    unfold reComment
    rw [e', run_seq_spaces (dots_space _) (by decide), mem_seq]
    constructor
    · rintro ⟨r, hr, hq⟩
      obtain ⟨h1, h2⟩ := mem_lit.mp hr
      have h3 : r.1 = [] := by simpa using h1.symm
      rcases mem_alt.mp hq with hq | hq
      · obtain ⟨h4, n, h5⟩ := mem_plus_chr.mp hq
        rw [h3] at h5
        simp [List.replicate_succ] at h5
      · obtain ⟨_, h4⟩ := mem_eos.mp hq
        rw [h4, h2]
    · rintro rfl
      exact ⟨([], _), mem_lit.mpr ⟨rfl, rfl⟩, mem_alt.mpr (.inr (mem_eos.mpr ⟨rfl, rfl⟩))⟩
  rw [e] at key ⊢
  exact captures_of_unique ((key _).mpr rfl) fun q hq => (key q).mp hq

theorem dots_first (E : Env) (i : Nat) : firstTransition (indentLine i (str! "..")) (bodyTable E) = some (dotsMatch i, bodyComment E) := by
  have k1 := (dots_transition E i [] (by intro n t ht; simp [List.replicate_succ] at ht)).1
  have e : indentLine i (str! "..") = spaces i ++ '.' :: '.' :: [] := rfl
  rw [← e] at k1
  have hno : ¬ str! "::" <:+: indentLine i (str! "..") := by
    intro h
    have hm : ':' ∈ indentLine i (str! "..") := h.subset (by simp)
    rcases List.mem_append.mp (show ':' ∈ spaces i ++ str! ".." from hm) with hm | hm
    · exact absurd (List.eq_of_mem_replicate hm) (by decide)
    · exact absurd hm (by decide)
  rw [k1, firstTransition, no_directive hno]
  simp only [firstTransition, dots_captures i]

theorem dots_noBreak {st : State} (i : Nat) : NoBreak st (indentLine i (str! "..")) :=
  noBreak_indented (c := '.') (t := ['.']) (by decide) (by rintro ⟨x, hx⟩; simp at hx)
    (fun _ => by rintro (⟨x, hx⟩ | ⟨x, hx⟩) <;> simp at hx)

theorem starts_dots {E : Env} (i : Nat) (rest : List Str) : Starts E i none (indentLine i (str! "..") :: rest) := by
  refine .other ⟨'.', ['.'], rfl, by decide⟩ (fun _ => dots_noBreak i) (unmarked_dots i _) fun ps _ => ?_
  have e1 : (dotsMatch i).getD .g1 = spaces i := rfl
  have key : ∃ act, bodyComment E (dotsMatch i) ps = atIndent (i + E.baseIndent) act ps := by
    unfold bodyComment
    simp only [e1, bind, P.bind, P.offset, List.length_replicate]
    exact ⟨_, rfl⟩
  obtain ⟨act, hact⟩ := key
  exact ⟨_, _, act, dots_first E i, hact⟩

theorem dots_visible (i : Nat) : isBlank (indentLine i (str! "..")) = false ∧ indentOf (indentLine i (str! "..")) = i :=
  ⟨indented_not_blank (c := '.') (t := ['.']) (by decide) i, indentOf_indented (c := '.') (t := ['.']) (by decide) i⟩

/-- The text of a comment that has some lines below its marker and nothing behind it. -/
def takenText (k : Nat) (taken : List Str) : Option Str :=
  let t := trim (joinWith ['\n'] ([] :: taken.map (·.drop k)))
  if t.isEmpty then none else some t

/-- The indentation of the text below two dots: that of the next line, if it is visible and indented. -/
def dotsIndent (i : Nat) (ls : List Str) : Nat :=
  match ls.head? with
  | none => i + 2
  | some l => if isBlank l then i + 2 else if indentOf l < i + 1 then i + 2 else indentOf l

/-- The block below two dots. -/
theorem dots_reads {E : Env} {s : PS} {i k : Nat} {taken rest : List Str} (hk : 0 < k)
    (h : E.src.drop s.cursor.relativeOffset = indentLine i (str! "..") :: taken ++ rest) (hls : ∀ l ∈ taken, isBlank l = true ∨ k ≤ indentOf l)
    (hr : Low k rest) :
    P.indentedBlock E false (some k) (some (i + 2)) false s = .ok ([] :: taken.map (·.drop k), taken.length + 1) s := by
  have hne : E.src.isEmpty = false := by
    cases hs : E.src with
    | nil => rw [hs] at h; simp at h
    | cons => rfl
  have hlen : ¬ E.src.length < s.cursor.relativeOffset := by
    intro hlt
    rw [List.drop_eq_nil_of_le (by omega)] at h
    simp at h
  obtain ⟨h1, h2⟩ := loop_low hr taken (some (indentLine i (str! ".."))) (fun x hx => by
    rcases hls x hx with h | h
    · exact .inl h
    · exact .inr ⟨by omega, h⟩)
  have hor : (some (i + 2)).or (some k) = some (i + 2) := rfl
  have hd : (indentLine i (str! "..")).drop (i + 2) = [] := List.drop_eq_nil_of_le (by simp [indentLine])
  rw [List.cons_append] at h
  simp only [P.indentedBlock, readIndentedBlock, hne, Bool.false_eq_true, if_false, hlen, hor, h, h1, h2, if_true, stripBlock,
    List.length_cons, List.length_map, hd]

/-- Two dots take all lines up to one that is less indented than the text. -/
theorem AtL.dots {E : Env} {S : SectionData} {os : List Frame} {s : LoopState} {f : Frame} {fs : List Frame} {c i k : Nat} {taken rest : List Str}
    (h0 : E.baseIndent = 0) (h : At E S os s (f :: fs) (indentLine i (str! "..") :: (taken ++ rest)) c) (hc : c ≤ 9) (hf : f.Body E i)
    (hk : dotsIndent i (taken ++ rest) = k) (ht : ∀ l ∈ taken, isBlank l = true ∨ k ≤ indentOf l) (hr : Low k rest) :
    Leads E S os s (f.add [.node (.Comment (takenText k taken)) []] :: fs) rest 0 := by
  have hsrc : E.src.drop s.ps.cursor.relativeOffset = indentLine i (str! "..") :: taken ++ rest := h.here
  have hpos : 0 < k := by
    rw [← hk]
    unfold dotsIndent
    split
    · omega
    · split
      · omega
      · split <;> omega
  have hnext : commentIndent E (i + E.baseIndent) (i + 2 + E.baseIndent) s.ps.cursor.relativeOffset = k + E.baseIndent := by
    have hget : E.src[s.ps.cursor.relativeOffset + 1]? = (taken ++ rest).head? := by
      have := congrArg (·[1]?) hsrc
      simpa [List.head?_eq_getElem?] using this
    rw [← hk]
    unfold commentIndent dotsIndent
    rw [hget, h0]
    cases (taken ++ rest).head? <;> rfl
  have hread := dots_reads (s := s.ps) hpos hsrc ht hr
  have hspine := h.spine
  obtain ⟨d', h1, h2, h3⟩ := Spine.add_targets (s := s.ps) (data := .Comment (takenText k taken)) (nodes := []) hspine
    (by intro n hn; obtain rfl := List.mem_singleton.mp hn; exact ⟨hf.kids _ (by simp [NodeType.kind, Kind.categories]), simple_comment⟩) (by simp [NodeType.kind]) (by simp [NodeType.kind])
  rw [pushAll_one] at h1
  have hp : parentIndentMatches s.ps.doc.sharedData (i + E.baseIndent) = .ok .justRight := by
    unfold parentIndentMatches
    have : s.ps.doc.sharedData.bodyIndent = some i := by
      show s.ps.doc.tree.node.data.bodyIndent = _; rw [hspine.data]; exact hf.indent
    rw [this, h0]; simp
  have hres : bodyComment E (dotsMatch i) s.ps = .ok (.neither, some (taken.length + 1)) { s.ps with doc := d' } := by
    have e1 : (dotsMatch i).whole.length = i + 2 := by simp [dotsMatch]
    have e2 : ((dotsMatch i).getD .g1).length = i := by
      show (spaces i).length = i
      simp
    unfold takenText at h1
    unfold bodyComment
    simp only [e1, e2, bind, P.bind, P.offset, hnext, Nat.add_sub_cancel, atIndent, P.doc, P.lift, hp, hread, h1, pure, P.pure]
  obtain ⟨ts, hts, hts'⟩ := hf.table
  have hstep := step_moved (h.stands hc) hts hf.notEnd ((hts' _ (dots_noBreak i)).trans (dots_first E i)) hres (stack := s.stack) rfl
    (k := taken.length + 1) rfl (by omega) (by simp)
  have hdrop : (indentLine i (str! "..") :: (taken ++ rest)).drop (taken.length + 1) = rest := by simp
  rw [hdrop] at hstep
  have hat := drop_incr h.here (taken.length + 1)
  rw [hdrop] at hat
  have hpend := h.pending
  have hsecs := h.secs
  refine ⟨_, .step hstep, ⟨hat, ?_, ?_, Nat.le_refl _, ?_⟩⟩
  · rw [hpend] at h2; simpa [labelFirst_nil] using h2
  · rw [h.stack_cons]; simp [stackFor, Frame.add]
  · rw [hsecs] at h3; exact h3

/-! ## The text -/

theorem trim_lead {w : Str} (hw : ∀ c ∈ w, isWs c = true) (t : Str) : Rustla.trim (w ++ t) = Rustla.trim t := by
  unfold Rustla.trim trimStart
  rw [List.dropWhile_append_of_pos hw]

theorem join_front (sep a x : Str) (g : List Str) : joinWith sep ((a ++ x) :: g) = a ++ joinWith sep (x :: g) := by
  cases g <;> simp [joinWith]

theorem join_lead {g : List Str} (hg : g ≠ []) : ∀ {bs : List Str}, (∀ l ∈ bs, isBlank l = true) →
    ∃ w, joinWith ['\n'] (bs ++ g) = w ++ joinWith ['\n'] g ∧ ∀ c ∈ w, isWs c = true
  | [], _ => ⟨[], rfl, by simp⟩
  | b :: bs, hb => by
    obtain ⟨w, e, hw⟩ := join_lead hg (bs := bs) (fun l hl => hb l (by simp [hl]))
    have hne : bs ++ g ≠ [] := by simp [hg]
    refine ⟨b ++ ['\n'] ++ w, ?_, ?_⟩
    · obtain ⟨x, xs, hx⟩ := List.exists_cons_of_ne_nil hne
      rw [List.cons_append, hx, joinWith, ← hx, e]; simp
    · intro c hc
      rcases List.mem_append.mp hc with hc | hc
      · rcases List.mem_append.mp hc with hc | hc
        · exact (isBlank_iff b).mp (hb b (by simp)) c hc
        · obtain rfl := List.mem_singleton.mp hc; decide
      · exact hw c hc

/-- Blank lines are no text. -/
theorem takenText_blank {k : Nat} {gap : List Str} (h : ∀ l ∈ gap, isBlank l = true) : takenText k gap = none := by
  have hb : ∀ l ∈ gap.map (·.drop k), isBlank l = true := by
    intro l hl
    obtain ⟨z, hz, rfl⟩ := List.mem_map.mp hl
    exact blank_drop (h z hz) _
  obtain ⟨w, e, hw⟩ := join_blanks hb (g := [[]]) (by simp)
  have e2 : joinWith ['\n'] ([] :: gap.map (·.drop k)) = w := by simpa [joinWith] using e
  have : trim (joinWith ['\n'] ([] :: gap.map (·.drop k))) = [] := by rw [e2]; exact (trim_eq_nil w).mpr hw
  unfold takenText
  simp only [this, List.isEmpty_nil, if_true]

/-- The text of the lines between blank lines. -/
theorem takenText_lines {k m : Nat} {gap gap2 ls : List Str} {l x : Str} {a b : Char} (h : ∀ l ∈ gap, isBlank l = true) (h2 : ∀ l ∈ gap2, isBlank l = true)
    (hl : l.head? = some a) (ha : isWs a = false) (hx : (l :: ls.map (contentLine m)).getLast? = some x) (hb : x.getLast? = some b) (hwb : isWs b = false) :
    takenText k (gap ++ ((l :: ls).map (contentLine (k + m)) ++ gap2)) = some (unlines (l :: ls.map (contentLine m))) := by
  have hg : ∀ l ∈ ([] : Str) :: gap.map (·.drop k), isBlank l = true := by
    intro l hl
    rcases List.mem_cons.mp hl with rfl | hl
    · rfl
    · obtain ⟨z, hz, rfl⟩ := List.mem_map.mp hl
      exact blank_drop (h z hz) _
  have hg2 : ∀ l ∈ gap2.map (·.drop k), isBlank l = true := by
    intro l hl
    obtain ⟨z, hz, rfl⟩ := List.mem_map.mp hl
    exact blank_drop (h2 z hz) _
  have hdrop : ∀ y : Str, (contentLine (k + m) y).drop k = contentLine m y := by
    intro y
    unfold contentLine indentLine
    split
    · simp
    · rw [← List.replicate_append_replicate, List.append_assoc, List.drop_left' (by simp)]
  have hne : l ≠ [] := by rintro rfl; cases hl
  have hmap : ((l :: ls).map (contentLine (k + m))).map (·.drop k) = (spaces m ++ l) :: ls.map (contentLine m) := by
    rw [List.map_map, List.map_cons]
    have e1 : ((fun x : Str => x.drop k) ∘ contentLine (k + m)) = contentLine m := funext hdrop
    rw [e1]
    have e2 : contentLine m l = spaces m ++ l := by unfold contentLine indentLine; rw [if_neg hne]
    rw [e2]
  obtain ⟨w, e, hw⟩ := join_lead (g := (spaces m ++ l) :: ls.map (contentLine m) ++ gap2.map (·.drop k)) (by simp) hg
  have htext : trim (joinWith ['\n'] ([] :: (gap ++ ((l :: ls).map (contentLine (k + m)) ++ gap2)).map (·.drop k))) = unlines (l :: ls.map (contentLine m)) := by
    rw [List.map_append, List.map_append, hmap]
    have e3 : ([] : Str) :: (gap.map (·.drop k) ++ ((spaces m ++ l) :: ls.map (contentLine m) ++ gap2.map (·.drop k))) =
        (([] : Str) :: gap.map (·.drop k)) ++ ((spaces m ++ l) :: ls.map (contentLine m) ++ gap2.map (·.drop k)) := by simp
    rw [e3, e, trim_lead hw, List.cons_append, join_front, trim_lead (fun c hc => by
      have := List.eq_of_mem_replicate hc; subst this; decide), ← List.cons_append]
    exact trim_lines rfl hl ha hx hb hwb hg2
  have hnonempty : (unlines (l :: ls.map (contentLine m))).isEmpty = false := by
    have := join_head (sep := ['\n']) hl (ls.map (contentLine m))
    rw [unlines_join]
    cases hj : joinWith ['\n'] (l :: ls.map (contentLine m)) with
    | nil => rw [hj] at this; cases this
    | cons => rfl
  unfold takenText
  simp only [htext, hnonempty, Bool.false_eq_true, if_false]

end Rustla
