import Verif.Model.Options
/-! # C01: command line options -/
namespace Rustla

/-- Specification: the output stream is decided by the last of the two output flags. -/
def lastOutputFlag (args : List Str) : Option Str :=
  args.reverse.find? fun a => a = str! "--to-stdout" ∨ a = str! "--to-file"

/-- **C01.** For every argument list: `--full-doc` and `--aplus-cls` take effect iff present; the last of
`--to-stdout`/`--to-file` decides the output stream, standard output being the default. -/
theorem C01_options (args : List Str) :
    ((Options.new args).printFullDocument = true ↔ str! "--full-doc" ∈ args) ∧
    ((Options.new args).generateClassFile = true ↔ str! "--aplus-cls" ∈ args) ∧
    ((Options.new args).outputStream = .file ↔ lastOutputFlag args = some (str! "--to-file")) := by
  have key : ∀ (l : List Str),
      ((l.foldr (fun a o => Options.step o a) {}).printFullDocument = true ↔ str! "--full-doc" ∈ l) ∧
      ((l.foldr (fun a o => Options.step o a) {}).generateClassFile = true ↔ str! "--aplus-cls" ∈ l) ∧
      ((l.foldr (fun a o => Options.step o a) {}).outputStream = .file ↔
        l.find? (fun a => decide (a = str! "--to-stdout" ∨ a = str! "--to-file")) = some (str! "--to-file")) := by
    intro l
    induction l with
    | nil => simp
    | cons a l ih =>
      obtain ⟨ih1, ih2, ih3⟩ := ih
      simp only [List.foldr_cons]
      generalize hrec : l.foldr (fun a o => Options.step o a) {} = o at ih1 ih2 ih3 ⊢
      unfold Options.step
      by_cases h1 : a = str! "--to-stdout"
      · subst h1; simp [ih1, ih2]
      · by_cases h2 : a = str! "--to-file"
        · subst h2; simp [ih1, ih2]
        · by_cases h3 : a = str! "--full-doc"
          · subst h3; simp [ih2, ih3]
          · by_cases h4 : a = str! "--aplus-cls"
            · subst h4; simp [ih1, ih3]
            · simp only [h1, h2, h3, h4, if_false, ih1, ih2, ih3, List.mem_cons, List.find?_cons]
              refine ⟨?_, ?_, ?_⟩
              · constructor
                · exact Or.inr
                · rintro (h | h)
                  · exact absurd h.symm h3
                  · exact h
              · constructor
                · exact Or.inr
                · rintro (h | h)
                  · exact absurd h.symm h4
                  · exact h
              · simp
  have := key args.reverse
  simp only [List.foldr_reverse, List.mem_reverse] at this
  exact this

/-- **C01**, second part: arguments other than the four flags never change the options. -/
theorem C01_unknown_arguments_ignored (args : List Str) :
    Options.new args = Options.new (args.filter fun a =>
      a = str! "--to-stdout" ∨ a = str! "--to-file" ∨ a = str! "--full-doc" ∨ a = str! "--aplus-cls") := by
  unfold Options.new
  generalize ({} : Options) = o
  induction args generalizing o with
  | nil => rfl
  | cons a args ih =>
    by_cases h : a = str! "--to-stdout" ∨ a = str! "--to-file" ∨ a = str! "--full-doc" ∨ a = str! "--aplus-cls"
    · simp only [List.foldl_cons, List.filter_cons, h, decide_true, if_true]; exact ih _
    · have hs : o.step a = o := by
        simp only [not_or] at h
        simp [Options.step, h]
      simp only [List.foldl_cons, List.filter_cons, h, decide_false, hs]
      exact ih _

example : Options.new [str! "--to-file", str! "x", str! "--full-doc", str! "--to-stdout", str! "--to-file"] =
    { outputStream := .file, printFullDocument := true, generateClassFile := false } := by decide

end Rustla
