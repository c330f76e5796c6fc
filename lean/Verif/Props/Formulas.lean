import Verif.Props.Latex
import Verif.Props.Documents
/-! # C58: formulas are converted twice -/
namespace Rustla
open Spec

/-- Characters of formulas for which the commands written contain the character itself. -/
def selfEscaped : List Char := ['#', '$', '%']

theorem mathInserts_ascii : ∀ e ∈ mathInserts, (e.1 ∈ [35, 36, 37] ∨ ∀ c ∈ e.2, ∀ k ∈ mathInserts, k.1 ≠ c.toNat) := by
  have h1 : ∀ e ∈ mathInserts, e.1 ∈ [35, 36, 37] ∨ ∀ c ∈ e.2, c.toNat < 126 ∧ c.toNat ∉ [35, 36, 37] := by decide +kernel
  have h2 : ∀ k ∈ mathInserts, k.1 ∈ [35, 36, 37] ∨ 126 ≤ k.1 := by decide +kernel
  intro e he
  rcases h1 e he with h | h
  · exact .inl h
  · refine .inr fun c hc k hk e => ?_
    obtain ⟨h3, h4⟩ := h c hc
    rcases h2 k hk with h | h
    · rw [e] at h; exact h4 h
    · omega

theorem lookup_mem {l : List (Nat × Str)} {n : Nat} {v : Str} (h : l.lookup n = some v) : (n, v) ∈ l := by
  induction l with
  | nil => simp at h
  | cons e l ih =>
    rw [List.lookup_cons] at h
    split at h
    · rename_i hn
      rw [beq_iff_eq] at hn
      cases h; rw [hn]; exact List.mem_cons_self ..
    · exact List.mem_cons_of_mem _ (ih h)

/-- **C58** (partial). The conversion of formulas may be repeated without harm if the formula contains none of the
characters `#`, `$` and `%`. -/
theorem C58_once_partial (s : Str) (h : ∀ c ∈ s, c ∉ selfEscaped) : mathToLatex (mathToLatex s) = mathToLatex s := by
  induction s with
  | nil => rfl
  | cons c s ih =>
    have hs := ih fun x hx => h x (by simp [hx])
    have hc := h c (by simp)
    show mathToLatex ((mathCommand? c).getD [c] ++ mathToLatex s) = (mathCommand? c).getD [c] ++ mathToLatex s
    rw [C04_math_homomorphism, hs]
    congr 1
    cases e : mathCommand? c with
    | none => simp [mathToLatex, e]
    | some v =>
      have hm : (c.toNat, v) ∈ mathInserts := by simpa using lookup_mem (l := mathInserts.reverse) e
      rcases mathInserts_ascii _ hm with h35 | hv
      · exfalso
        apply hc
        simp only [List.mem_cons, List.not_mem_nil, or_false] at h35
        have key : ∀ (a : Char), c.toNat = a.toNat → c = a := fun a e => Char.toNat_inj.mp e
        simp only [selfEscaped, List.mem_cons, List.not_mem_nil, or_false]
        rcases h35 with h | h | h
        · exact .inl (key '#' h)
        · exact .inr (.inl (key '$' h))
        · exact .inr (.inr (key '%' h))
      · exact C04_math_unmapped v hv

/-- The condition is met by a formula with Greek letters. -/
example : mathToLatex (mathToLatex (str! "α ~ β")) = str! "\\alpha \\sim \\beta" := by decide +kernel

/-- A document with a formula. -/
def formulaPaper : Paper := ⟨[], .para [str! ":math:`5%`"] [.role .math (str! "5%")] [] .nil, [], []⟩

/-- **C58 is violated.** A percent sign in a formula given by a role becomes a line break followed by a comment sign, which
hides the end of the formula. -/
theorem C58_violated (w : WriterEnv) (h : w.fullDocument = false) (fuel : Nat)
    (hfuel : roundsBound (textSize [str! ":math:`5%`"]) ≤ fuel) :
    (transpile fuel w [] [] [str! ":math:`5%`"]).text = str! "\\(5\\\\%\\)\n\n" :=
  (C56_output fuel w [] [] formulaPaper (by decide +kernel) (by decide) hfuel h).2.trans (by
    show paragraphLatex [.role .math (str! "5%")] ++ [] ++ [] = _
    decide +kernel)

end Rustla
