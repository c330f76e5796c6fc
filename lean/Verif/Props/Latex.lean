import Verif.Model.Latex
/-! # C02–C04: conversion of text and mathematics to LaTeX

The specification is a small model of how TeX reads characters: a backslash followed by ASCII letters
is a control word (spaces after it are skipped), a backslash followed by anything else is a control
symbol, everything else is a character. -/
namespace Rustla

namespace TeX

/-- A token of the TeX reader. -/
inductive Tok where
  | ch (c : Char)
  | ctrl (name : Str)
  deriving DecidableEq, Repr

/-- Blank characters that TeX skips after a control word. -/
def isSkipped (c : Char) : Bool := c == ' ' || c == '\t' || c == '\n'

/-- The TeX reader.  `mode` is what is being read: plain text, just after a backslash, inside a control
word (with the letters read so far, reversed), or skipping blanks after a control word. -/
inductive Mode where
  | plain
  | afterBackslash
  | word (rev : Str)
  | skipping
  deriving DecidableEq, Repr

/-- One step of the reader: the tokens completed by `c`, and the new mode. -/
def Mode.step : Mode → Char → List Tok × Mode
  | .plain, c => if c = '\\' then ([], .afterBackslash) else ([.ch c], .plain)
  | .afterBackslash, c => if isAsciiAlpha c then ([], .word [c]) else ([.ctrl [c]], .plain)
  | .word w, c =>
    if isAsciiAlpha c then ([], .word (c :: w))
    else if isSkipped c then ([.ctrl w.reverse], .skipping)
    else if c = '\\' then ([.ctrl w.reverse], .afterBackslash)
    else ([.ctrl w.reverse, .ch c], .plain)
  | .skipping, c =>
    if isSkipped c then ([], .skipping)
    else if c = '\\' then ([], .afterBackslash)
    else ([.ch c], .plain)

/-- Tokens still pending at the end of the text. -/
def Mode.finish : Mode → List Tok
  | .plain => []
  | .afterBackslash => [.ctrl []]
  | .word w => [.ctrl w.reverse]
  | .skipping => []

/-- All tokens of a text, read in the given mode. -/
def lexFrom : Mode → Str → List Tok
  | m, [] => m.finish
  | m, c :: cs => (m.step c).1 ++ lexFrom (m.step c).2 cs

/-- All tokens of a text. -/
def lex (s : Str) : List Tok := lexFrom .plain s

/-- The characters TeX treats specially in text. -/
def specials : Str := str! "\\^_~${}#&%"

/-- The control sequences that stand for a special character. -/
def escapes : List (Str × Char) :=
  [(str! "textbackslash", '\\'), (str! "textasciicircum", '^'), (str! "_", '_'), (str! "~", '~'),
   (str! "$", '$'), (str! "{", '{'), (str! "}", '}'), (str! "#", '#'), (str! "&", '&'), (str! "%", '%')]

/-- The character a token stands for, if it is an ordinary character or one of the escapes. -/
def Tok.meaning : Tok → Option Char
  | .ch c => if c ∈ specials then none else some c
  | .ctrl n => escapes.lookup n

end TeX

open TeX

/-- What the source text says: a backslash protects the next character and is itself not shown; a single
backslash at the end is shown. -/
def unprotect : Str → Str
  | [] => []
  | [c] => [c]
  | c :: c2 :: rest => if c = '\\' then c2 :: unprotect rest else c :: unprotect (c2 :: rest)


/-- May the escape for `shown` be followed directly by the text `after` without TeX reading something else?
`^` and a shown backslash become control words, which swallow blanks and merge with a protected
letter; all other specials become control symbols, behind which the program inserts a space that TeX
does not skip when a letter follows. -/
def separable (shown : Char) (after : Str) : Bool :=
  if shown = '^' ∨ shown = '\\' then
    match after with
    | [] => true
    | [a] => !isSkipped a
    | a :: b :: _ => !isSkipped a && !(a == '\\' && (isAsciiAlpha b || isSkipped b))
  else if shown ∈ specials then
    match after with
    | [] => true
    | a :: _ => !isAsciiAlpha a
  else true

/-- Every special character of the text is `separable` from what follows it. -/
def clean : Str → Bool
  | [] => true
  | [_] => true
  | c :: c2 :: rest =>
    if c = '\\' then separable c2 rest && clean rest
    else separable c (c2 :: rest) && clean (c2 :: rest)

/-! ## Helper lemmas -/

theorem toNat_ne {c d : Char} (h : c ≠ d) : c.toNat ≠ d.toNat := fun e => h (Char.toNat_inj.mp e)

theorem textEscape?_none {c : Char} (h : c ∉ specials) : textEscape? c = none := by
  simp only [specials, List.mem_cons, List.not_mem_nil, or_false, not_or] at h
  obtain ⟨h1, h2, h3, h4, h5, h6, h7, h8, h9, h10⟩ := h
  have n1 := toNat_ne h1; have n2 := toNat_ne h2; have n3 := toNat_ne h3; have n4 := toNat_ne h4
  have n5 := toNat_ne h5; have n6 := toNat_ne h6; have n7 := toNat_ne h7; have n8 := toNat_ne h8
  have n9 := toNat_ne h9; have n10 := toNat_ne h10
  simp only [Char.reduceToNat] at n1 n2 n3 n4 n5 n6 n7 n8 n9 n10
  simp only [textEscape?, textTable, List.lookup, beq_eq_false_iff_ne.mpr n1, beq_eq_false_iff_ne.mpr n2,
    beq_eq_false_iff_ne.mpr n3, beq_eq_false_iff_ne.mpr n4, beq_eq_false_iff_ne.mpr n5,
    beq_eq_false_iff_ne.mpr n6, beq_eq_false_iff_ne.mpr n7, beq_eq_false_iff_ne.mpr n8,
    beq_eq_false_iff_ne.mpr n9, beq_eq_false_iff_ne.mpr n10]

theorem specials_cases {c : Char} (h : c ∈ specials) :
    c = '\\' ∨ c = '^' ∨ c = '_' ∨ c = '~' ∨ c = '$' ∨ c = '{' ∨ c = '}' ∨ c = '#' ∨ c = '&' ∨ c = '%' := by
  simpa [specials] using h

/-- Run the reader over a piece of text. -/
def TeX.run : Mode → Str → List Tok × Mode
  | m, [] => ([], m)
  | m, c :: cs => ((m.step c).1 ++ (run (m.step c).2 cs).1, (run (m.step c).2 cs).2)

theorem TeX.lexFrom_append (m : Mode) (a b : Str) :
    lexFrom m (a ++ b) = (run m a).1 ++ lexFrom (run m a).2 b := by
  induction a generalizing m with
  | nil => simp [run]
  | cons c cs ih => simp [run, lexFrom, ih, List.append_assoc]

theorem spaceFor_cases (rest : Str) : spaceFor rest = [] ∨ spaceFor rest = [' '] := by
  unfold spaceFor
  split
  · simp
  · split <;> simp

/-- A token that is not a live special character. -/
def TeX.Tok.dead : Tok → Prop
  | .ch c => c ∉ specials
  | .ctrl _ => True

theorem emit_ok (m : Mode) (hm : m ≠ .afterBackslash) (c : Char) (rest : Str) :
    (∀ t ∈ (run m (emitText c rest)).1, t.dead) ∧ (run m (emitText c rest)).2 ≠ .afterBackslash := by
  by_cases h : c ∈ specials
  · rcases spaceFor_cases rest with hs | hs <;>
    rcases specials_cases h with h | h | h | h | h | h | h | h | h | h <;> subst h <;>
    simp only [emitText, textEscape?, textTable, List.lookup, Char.reduceToNat, Nat.reduceBEq, hs] <;>
    cases m <;> first | (exact absurd rfl hm) | (simp [run, Mode.step, Tok.dead, isAsciiAlpha, isSkipped, specials])
  · simp only [emitText, textEscape?_none h]
    have hb : c ≠ '\\' := by intro e; subst e; exact h (by decide)
    cases m <;> simp only [run, Mode.step, hb, if_false] <;> (repeat' split) <;> simp_all [Tok.dead]

theorem escape_dead (s : Str) : ∀ m : Mode, m ≠ .afterBackslash →
    ∀ t ∈ lexFrom m (escapeText s), t.dead := by
  induction s using escapeText.induct with
  | case1 => intro m hm; cases m <;> simp [escapeText, lexFrom, Mode.finish, Tok.dead]
  | case2 c =>
    intro m hm t ht
    rw [escapeText, ← List.append_nil (emitText c []), lexFrom_append, List.mem_append] at ht
    rcases ht with ht | ht
    · exact (emit_ok m hm c []).1 t ht
    · have := (emit_ok m hm c []).2
      revert ht this
      generalize (run m (emitText c [])).2 = m'
      intro ht this
      cases m' <;> simp_all [lexFrom, Mode.finish, Tok.dead]
  | case3 c2 rest ih =>
    intro m hm t ht
    rw [escapeText, if_pos rfl, lexFrom_append, List.mem_append] at ht
    rcases ht with ht | ht
    · exact (emit_ok m hm _ _).1 t ht
    · exact ih _ (emit_ok m hm _ _).2 t ht
  | case4 c c2 rest hc ih =>
    intro m hm t ht
    rw [escapeText, if_neg hc, lexFrom_append, List.mem_append] at ht
    rcases ht with ht | ht
    · exact (emit_ok m hm _ _).1 t ht
    · exact ih _ (emit_ok m hm _ _).2 t ht


theorem isAsciiAlpha_not_ws {c : Char} (h : isAsciiAlpha c = true) : isWs c = false := by
  simp only [isAsciiAlpha, Bool.or_eq_true, Bool.and_eq_true, decide_eq_true_eq] at h
  simp only [isWs, Bool.or_eq_false_iff, Bool.and_eq_false_iff, decide_eq_false_iff_not, beq_eq_false_iff_ne]
  omega

theorem isAsciiAlpha_not_skipped {c : Char} (h : isAsciiAlpha c = true) : isSkipped c = false := by
  simp only [isSkipped, Bool.or_eq_false_iff, beq_eq_false_iff_ne]
  refine ⟨⟨?_, ?_⟩, ?_⟩ <;> rintro rfl <;> simp [isAsciiAlpha] at h

theorem emitText_head (c : Char) (rest : Str) :
    ∃ t, emitText c rest = '\\' :: t ∨ (c ∉ specials ∧ emitText c rest = [c]) := by
  by_cases h : c ∈ specials
  · rcases specials_cases h with h | h | h | h | h | h | h | h | h | h <;> subst h <;>
    simp only [emitText, textEscape?, textTable, List.lookup, Char.reduceToNat, Nat.reduceBEq] <;>
    exact ⟨_, Or.inl rfl⟩
  · exact ⟨[], Or.inr ⟨h, by simp [emitText, textEscape?_none h]⟩⟩

theorem emitText_head' (c : Char) (rest more : Str) :
    (emitText c rest ++ more).head? = some '\\' ∨ (emitText c rest ++ more).head? = some c := by
  obtain ⟨t, h | ⟨_, h⟩⟩ := emitText_head c rest <;> simp [h]

theorem escape_head (rest : Str) (h : separable '^' rest = true) :
    ∀ c, (escapeText rest).head? = some c →
      isSkipped c = false ∧ (spaceFor rest = [] → isAsciiAlpha c = false) := by
  intro c hc
  have hbs : isSkipped '\\' = false ∧ isAsciiAlpha '\\' = false := by decide
  cases rest with
  | nil => simp [escapeText] at hc
  | cons a tl =>
    cases tl with
    | nil =>
      simp only [separable, true_or, if_true, Bool.not_eq_eq_eq_not, Bool.not_true] at h
      have := emitText_head' a [] []
      rw [List.append_nil] at this
      rw [escapeText] at hc
      rw [hc] at this
      simp only [Option.some.injEq] at this
      rcases this with rfl | rfl
      · exact ⟨hbs.1, fun _ => hbs.2⟩
      · refine ⟨h, fun hs => ?_⟩
        cases hal : isAsciiAlpha c with
        | false => rfl
        | true =>
          have hw := isAsciiAlpha_not_ws hal
          have hb : (c == '\\') = false := by
            simp only [beq_eq_false_iff_ne]; rintro rfl; exact absurd hal (by decide)
          simp [spaceFor, hal, hw, hb] at hs
    | cons b tl =>
      simp only [separable, true_or, if_true, Bool.and_eq_true, Bool.not_eq_eq_eq_not, Bool.not_true,
        Bool.and_eq_false_iff, beq_eq_false_iff_ne, Bool.or_eq_false_iff] at h
      obtain ⟨h1, h2⟩ := h
      rw [escapeText] at hc
      by_cases hab : a = '\\'
      · rw [if_pos hab] at hc
        have := emitText_head' b tl (escapeText tl)
        rw [hc] at this
        simp only [Option.some.injEq] at this
        rcases this with rfl | rfl
        · exact ⟨hbs.1, fun _ => hbs.2⟩
        · rcases h2 with h2 | h2
          · exact absurd hab h2
          · exact ⟨h2.2, fun _ => h2.1⟩
      · rw [if_neg hab] at hc
        have := emitText_head' a (b :: tl) (escapeText (b :: tl))
        rw [hc] at this
        simp only [Option.some.injEq] at this
        rcases this with rfl | rfl
        · exact ⟨hbs.1, fun _ => hbs.2⟩
        · refine ⟨h1, fun hs => ?_⟩
          cases hal : isAsciiAlpha c with
          | false => rfl
          | true =>
            have hw := isAsciiAlpha_not_ws hal
            simp [spaceFor, hal, hw, hab] at hs

theorem lex_word (w out : Str) (h : ∀ c, out.head? = some c → isSkipped c = false ∧ isAsciiAlpha c = false) :
    lexFrom (.word w) out = .ctrl w.reverse :: lexFrom .plain out := by
  cases out with
  | nil => simp [lexFrom, Mode.finish]
  | cons c cs =>
    obtain ⟨h1, h2⟩ := h c rfl
    simp only [lexFrom, Mode.step, h1, h2, Bool.false_eq_true, if_false]
    split <;> simp

theorem lex_skipping (out : Str) (h : ∀ c, out.head? = some c → isSkipped c = false) :
    lexFrom .skipping out = lexFrom .plain out := by
  cases out with
  | nil => simp [lexFrom, Mode.finish]
  | cons c cs =>
    have h1 := h c rfl
    simp only [lexFrom, Mode.step, h1, Bool.false_eq_true, if_false]

theorem spaceFor_nil_of_not_alpha {a : Char} {tl : Str} (h : isAsciiAlpha a = false) :
    spaceFor (a :: tl) = [] := by simp [spaceFor, h]

theorem emit_faithful (c : Char) (rest : Str) (h : separable c rest = true) :
    (lexFrom .plain (emitText c rest ++ escapeText rest)).map Tok.meaning =
      some c :: (lexFrom .plain (escapeText rest)).map Tok.meaning := by
  by_cases hsp : c ∈ specials
  · by_cases hw : c = '^' ∨ c = '\\'
    · have hsep : separable '^' rest = true := by
        rcases hw with rfl | rfl
        · exact h
        · simpa [separable] using h
      have hh := escape_head rest hsep
      rcases spaceFor_cases rest with hs | hs
      · rw [lexFrom_append]
        have : ∃ w, (run .plain (emitText c rest)) = ([], .word w) ∧ (Tok.ctrl w.reverse).meaning = some c := by
          rcases hw with rfl | rfl
          · exact ⟨(str! "textasciicircum").reverse, by simp only [emitText, hs]; decide, by decide⟩
          · exact ⟨(str! "textbackslash").reverse, by simp only [emitText, hs]; decide, by decide⟩
        obtain ⟨w, hw1, hw2⟩ := this
        rw [hw1]
        simp only [List.nil_append]
        rw [lex_word w _ (fun c hc => ⟨(hh c hc).1, (hh c hc).2 hs⟩)]
        simp [hw2]
      · rw [lexFrom_append]
        have : ∃ w, (run .plain (emitText c rest)) = ([.ctrl w], .skipping) ∧ (Tok.ctrl w).meaning = some c := by
          rcases hw with rfl | rfl
          · exact ⟨(str! "textasciicircum"), by simp only [emitText, hs]; decide, by decide⟩
          · exact ⟨(str! "textbackslash"), by simp only [emitText, hs]; decide, by decide⟩
        obtain ⟨w, hw1, hw2⟩ := this
        rw [hw1]
        rw [lex_skipping _ (fun c hc => (hh c hc).1)]
        simp [hw2]
    · have hs : spaceFor rest = [] := by
        cases rest with
        | nil => rfl
        | cons a tl =>
          simp only [separable, hw, if_false, hsp, if_true, Bool.not_eq_eq_eq_not, Bool.not_true] at h
          exact spaceFor_nil_of_not_alpha h
      rw [lexFrom_append]
      have : (run .plain (emitText c rest)) = ([.ctrl [c]], .plain) ∧ (Tok.ctrl [c]).meaning = some c := by
        simp only [emitText, hs]
        rcases specials_cases hsp with h | h | h | h | h | h | h | h | h | h <;> subst h <;>
          first | exact absurd (by decide) hw | decide
      rw [this.1]
      simp [this.2]
  · have : emitText c rest = [c] := by simp [emitText, textEscape?_none hsp]
    have hb : c ≠ '\\' := by intro e; subst e; exact hsp (by decide)
    rw [this]
    simp [lexFrom, Mode.step, hb, Tok.meaning, hsp]

/-! ## The properties -/

/-- **C02.** For every text, no special character is left live in the escaped text: whenever TeX reads an
ordinary character from it, that character is not one of `\ ^ _ ~ $ { } # & %`. -/
theorem C02_no_live_special (s : Str) (c : Char) (h : Tok.ch c ∈ lex (escapeText s)) : c ∉ specials :=
  escape_dead s .plain (by simp) _ h

example : Tok.ch 'b' ∈ lex (escapeText (str! "a_{b}^$c")) := by decide

/-- **C03** (part that holds).  For every text in which specials are `separable` from what follows them, TeX
reads from the escaped text exactly the characters of the source text: nothing is lost, added or merged.
Missing from the full property: texts that are not `clean`; there it is false, see the next theorems. -/
theorem C03_faithful_partial (s : Str) (h : clean s = true) :
    (lex (escapeText s)).map Tok.meaning = (unprotect s).map some := by
  unfold lex
  induction s using escapeText.induct with
  | case1 => simp [escapeText, lexFrom, Mode.finish, unprotect]
  | case2 c =>
    have := emit_faithful c [] (by simp [separable])
    simp only [escapeText, List.append_nil] at this ⊢
    simpa [unprotect, lexFrom, Mode.finish] using this
  | case3 c2 rest ih =>
    simp only [clean, if_true, Bool.and_eq_true] at h
    simp only [escapeText, if_true, unprotect]
    rw [emit_faithful _ _ h.1, ih h.2]
    simp
  | case4 c c2 rest hc ih =>
    simp only [clean, hc, if_false, Bool.and_eq_true] at h
    simp only [escapeText, hc, if_false, unprotect]
    rw [emit_faithful _ _ h.1, ih h.2]
    simp

/-- Consequence: on clean texts the escaper is injective up to backslash protection. -/
theorem C03_injective_partial (s t : Str) (hs : clean s = true) (ht : clean t = true)
    (h : escapeText s = escapeText t) : unprotect s = unprotect t := by
  have h1 := C03_faithful_partial s hs
  have h2 := C03_faithful_partial t ht
  rw [h, h2] at h1
  exact ((List.map_inj_right (fun _ _ e => Option.some.inj e)).mp h1).symm

example : clean (str! "100% of_9 {1}^2 \\_ \\\\.") = true := by decide

/-- **C03 fails**: the backslash-free texts `^a` and `^ a` are turned into the same LaTeX text. -/
theorem C03_not_injective : ∃ s t : Str, s ≠ t ∧ '\\' ∉ s ∧ '\\' ∉ t ∧ escapeText s = escapeText t :=
  ⟨str! "^a", str! "^ a", by decide, by decide, by decide, by decide⟩

/-- **C03 fails**: a letter behind an underscore (as in `snake_case`) is separated from it by a space that TeX
shows. -/
theorem C03_underscore_adds_space :
    (lex (escapeText (str! "a_b"))).map Tok.meaning = (str! "a_ b").map some := by decide

/-- **C02/C03**: a protected letter behind `^` is merged into the control word, which is then not one of the
escapes. -/
theorem C03_protected_letter_merges :
    Tok.ctrl (str! "textasciicircuma") ∈ lex (escapeText (str! "^\\a")) := by decide

/-- Specification: the conversion is determined by the conversion of single characters. -/
theorem C04_math_homomorphism (s t : Str) : mathToLatex (s ++ t) = mathToLatex s ++ mathToLatex t := by
  induction s with
  | nil => simp [mathToLatex]
  | cons c cs ih => simp [mathToLatex, ih, List.append_assoc]

/-- **C04**, second part: characters for which no conversion is listed are copied unchanged. -/
theorem C04_math_unmapped (s : Str) (h : ∀ c ∈ s, ∀ e ∈ mathInserts, e.1 ≠ c.toNat) : mathToLatex s = s := by
  have key : ∀ (l : List (Nat × Str)) (n : Nat), (∀ e ∈ l, e.1 ≠ n) → l.lookup n = none := by
    intro l n
    induction l with
    | nil => simp
    | cons e l ih =>
      intro hl
      obtain ⟨a, b⟩ := e
      have h1 : (n == a) = false := by
        have := hl (a, b) (by simp)
        simp only [beq_eq_false_iff_ne]
        exact fun e => this e.symm
      simp only [List.lookup, h1]
      exact ih (fun e he => hl e (by simp [he]))
  induction s with
  | nil => rfl
  | cons c cs ih =>
    have h1 : mathCommand? c = none := by
      unfold mathCommand?
      apply key
      intro e he
      exact h c (by simp) e (List.mem_reverse.mp he)
    simp only [mathToLatex, h1, Option.getD_none, List.cons_append, List.nil_append]
    rw [ih (fun d hd => h d (by simp [hd]))]

example : ∀ c ∈ str! "x+1=a&b\\frac{1}{2}", ∀ e ∈ mathInserts, e.1 ≠ c.toNat := by decide +kernel

/-- **C04**, third part: a listed character is converted to the value inserted last for it. -/
theorem C04_math_mapped (c : Char) (pre post : List (Nat × Str)) (v : Str)
    (h : mathInserts = pre ++ (c.toNat, v) :: post) (hl : ∀ e ∈ post, e.1 ≠ c.toNat) :
    mathToLatex [c] = v := by
  have key : ∀ (l l' : List (Nat × Str)) (n : Nat), (∀ e ∈ l, e.1 ≠ n) → (l ++ l').lookup n = l'.lookup n := by
    intro l l' n
    induction l with
    | nil => simp
    | cons e l ih =>
      intro hl
      obtain ⟨a, b⟩ := e
      have h1 : (n == a) = false := by
        have := hl (a, b) (by simp)
        simp only [beq_eq_false_iff_ne]
        exact fun e => this e.symm
      simp only [List.cons_append, List.lookup, h1]
      exact ih (fun e he => hl e (by simp [he]))
  have : mathCommand? c = some v := by
    unfold mathCommand?
    rw [h, List.reverse_append, List.reverse_cons, List.append_assoc, key]
    · simp
    · intro e he; exact hl e (List.mem_reverse.mp he)
  simp [mathToLatex, this]

/-- Finding: `≤` is converted to `\gg` (three insertions for U+2264), `Ψ` to `\Omega`. -/
theorem C04_wrong_entries : mathToLatex (str! "≤") = str! "\\gg" ∧ mathToLatex (str! "Ψ") = str! "\\Omega" := by
  decide +kernel

/-- Finding: no separator is emitted behind a math command, so `αx` becomes the single control word `\alphax`. -/
theorem C04_math_command_merges : lex (mathToLatex (str! "αx")) = [Tok.ctrl (str! "alphax")] := by
  decide +kernel

end Rustla
