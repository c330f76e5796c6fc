import Verif.Lemmas.Frames
import Verif.Lemmas.SafeLoop
/-! # Runs of nested parsers -/
namespace Rustla
open Spec

theorem Above.full {path : List (TreeNode × Nat)} {fs : List Frame} (h : Above path fs) :
    Zipper.WFPath path ∧ ∀ e ∈ path, e.1.data.bodyIndent.isSome = true := by
  induction h with
  | nil => exact ⟨trivial, by simp⟩
  | cons hl _ ih =>
    refine ⟨⟨⟨_, hl.2.1, Nat.le_refl _⟩, ih.1⟩, fun e he => ?_⟩
    rcases List.mem_cons.mp he with rfl | he
    · simp only [hl.1]; exact hl.2.2.2.2
    · exact ih.2 e he

/-- A document with open nodes that look like frames has an indentation everywhere. -/
theorem Spine.full {d : DocTree} {fs : List Frame} (h : Spine d.tree fs) : d.Full := by
  generalize hz : d.tree = z at h
  cases h with
  | mk hl ha =>
    have hi : d.tree.node.data.bodyIndent.isSome = true := by rw [hz]; simp only [hl.1]; exact hl.2.2.2.2
    obtain ⟨h1, h2⟩ := ha.full
    exact ⟨⟨by rw [hz]; exact h1, by rw [hz]; exact h2, allowed_of_indent hi, .inl hi⟩, hi⟩

theorem loop_fuel {M : Machine} : ∀ (a : Nat) (s : LoopState) (b : Nat), a ≤ b → parseLoop M a s ≠ .error .outOfFuel →
    parseLoop M b s = parseLoop M a s := by
  intro a
  induction a with
  | zero => intro s b _ h; exact absurd rfl h
  | succ a ih =>
    intro s b hb h
    obtain ⟨b, rfl⟩ : ∃ k, b = k + 1 := ⟨b - 1, by omega⟩
    simp only [parseLoop] at h ⊢
    cases hs : parseStep M s with
    | error p => rfl
    | ok r =>
      cases r with
      | done x => rfl
      | next s' =>
        simp only [hs, bind, Except.bind] at h ⊢
        exact ih s' b (by omega) h

/-- A nested parser that gets to the end of its lines. -/
theorem nested_run {E : Env} {m : Nat} (hm : E.nested = parserOf m) (hn : roundsBound (textSize E.src) ≤ m + 1) {d : DocTree}
    {st : State} (hst : st.live = true) {line level : Nat} {S : SectionData} {os frames fs : List Frame} (hd : Spine d.tree fs)
    (h : Leads E S os (LoopState.init d line st level) frames [] 0) :
    ∃ d', parserOf (m + 1) E.src d E.baseIndent line st level = .ok (.eof d' (frames.map (·.st)).reverse) ∧
      Spine d'.tree (frames ++ os) ∧ d'.notes = (S, []) := by
  obtain ⟨s', ⟨k, hk⟩, h2⟩ := h
  have hstack : s'.stack = (frames.map (·.st)).reverse ++ [.EOF] := by rw [h2.stack]; simp [stackFor]
  have hstep : parseStep (machineOf E) s' = .ok (.done (.eof s'.ps.doc (frames.map (·.st)).reverse)) := by
    unfold parseStep
    rw [if_neg (by rintro ⟨_, h⟩; have := h2.count; omega), hstack, List.getLast?_concat, List.dropLast_concat]
  have hloop : parseLoop (machineOf E) (1 + k) (LoopState.init d line st level) =
      .ok (.eof s'.ps.doc (frames.map (·.st)).reverse) := by
    rw [hk]
    simp only [parseLoop, hstep, bind, Except.bind, pure, Except.pure]
  have hE : E = { src := E.src, baseIndent := E.baseIndent, nested := parserOf m } := by rw [← hm]
  have hp : parserOf (m + 1) E.src d E.baseIndent line st level = parseLoop (machineOf E) (m + 1) (LoopState.init d line st level) := by
    conv => rhs; rw [hE]
    rfl
  have hsafe : parseLoop (machineOf E) (m + 1) (LoopState.init d line st level) ≠ .error .outOfFuel := by
    intro he
    have := parser_safe (textSize E.src) (m + 1) hn E.src d E.baseIndent line st level (Nat.le_refl _) hst hd.full
    rw [hp, he] at this
    have : Panic.outOfFuel ∈ crashReasons := this
    revert this
    decide
  refine ⟨s'.ps.doc, ?_, h2.spine, h2.secs⟩
  rw [hp]
  rcases Nat.le_total (m + 1) (1 + k) with hle | hle
  · rw [← loop_fuel _ _ _ hle hsafe, hloop]
  · rw [loop_fuel _ _ _ hle (by rw [hloop]; simp), hloop]

/-- The first state of a nested parser. -/
theorem AtL.init {E : Env} {S : SectionData} {os : List Frame} {d : DocTree} {f : Frame} (hd : Spine d.tree (f :: os))
    (hs : d.notes = (S, [])) (hne : E.src ≠ []) (line level : Nat) :
    At E S os (LoopState.init d line f.st level) [f] E.src 0 := by
  refine ⟨rfl, hd, ?_, Nat.le_refl _, hs⟩
  have : E.src.isEmpty = false := by
    cases h : E.src with
    | nil => exact absurd h hne
    | cons => rfl
  simp [stackFor, this, LoopState.init]

theorem roundsBound_mono {a b : Nat} (h : a ≤ b) : roundsBound a ≤ roundsBound b := by
  have := statesBound_mono h
  unfold roundsBound; omega

theorem roundsBound_lt {a b : Nat} (h : a < b) : roundsBound a + 1 ≤ roundsBound b := by
  have h1 := statesBound_step a
  have h2 := statesBound_mono (show a + 1 ≤ b from h)
  unfold roundsBound; omega

theorem lt_roundsBound (a : Nat) : a < roundsBound a := by
  induction a with
  | zero => unfold roundsBound; omega
  | succ a ih => have := roundsBound_lt (Nat.lt_succ_self a); simp only [Nat.succ_eq_add_one] at this; omega

/-- Enough rounds for some lines are enough for a part of them. -/
theorem rounds_part {ls ls' : List Str} {n : Nat} (h : roundsBound (textSize ls) ≤ n) (hs : textSize ls' ≤ textSize ls) :
    roundsBound (textSize ls') ≤ n := Nat.le_trans (roundsBound_mono hs) h

end Rustla
