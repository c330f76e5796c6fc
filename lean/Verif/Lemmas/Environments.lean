import Verif.Spec.Environments
import Verif.Props.WriterText
import Verif.Props.Latex
/-! # Reading the environments of what the writer writes -/
namespace Rustla
open Spec TeX

theorem readText_append (r : Reader) (a b : Str) : readText r (a ++ b) = (readText r a).bind fun r' => readText r' b := by
  induction a generalizing r with
  | nil => rfl
  | cons c a ih =>
    simp only [List.cons_append, readText]
    cases readChar r c with
    | none => rfl
    | some r' => exact ih r'

theorem readChar_frame {r r' : Reading} {a b : List Str} {c : Char} (k : List Str)
    (h : readChar (r, a) c = some (r', b)) : readChar (r, a ++ k) c = some (r', b ++ k) := by
  cases r with
  | text => cases h; rfl
  | comment => cases h; rfl
  | backslash => cases h; rfl
  | word w =>
    simp only [readChar] at h ⊢
    split at h
    · rename_i h1; cases h; rw [if_pos h1]
    · rename_i h1
      rw [if_neg h1]
      split at h
      · rename_i h2; cases h; rw [if_pos h2]
      · rename_i h2
        rw [if_neg h2]
        split at h
        · rename_i h3; cases h; rw [if_pos h3]
        · rename_i h3; cases h; rw [if_neg h3]
  | name o n =>
    simp only [readChar] at h ⊢
    split at h
    · rename_i h1
      rw [if_pos h1]
      cases o with
      | true => cases h; rfl
      | false =>
        cases a with
        | nil => cases h
        | cons m rest =>
          simp only [closeName, Bool.false_eq_true, if_false, List.cons_append] at h ⊢
          split at h
          · rename_i h2; cases h; rw [if_pos h2]; rfl
          · cases h
    · rename_i h1; cases h; rw [if_neg h1]

theorem readText_frame {r r' : Reading} {a b : List Str} {s : Str} (k : List Str)
    (h : readText (r, a) s = some (r', b)) : readText (r, a ++ k) s = some (r', b ++ k) := by
  induction s generalizing r a with
  | nil => cases h; rfl
  | cons c s ih =>
    simp only [readText] at h ⊢
    cases hc : readChar (r, a) c with
    | none => rw [hc] at h; cases h
    | some p =>
      obtain ⟨r1, a1⟩ := p
      rw [hc] at h
      rw [readChar_frame k hc]
      exact ih h

theorem prefix_of_append {w b : Str} {c : Char} (h : (w ++ [c]).isPrefixOf b = true) : w.isPrefixOf b = true := by
  rw [List.isPrefixOf_iff_prefix] at h ⊢
  exact (List.prefix_append w [c]).trans h

theorem calm_word_more {w : Str} {c : Char} (h : calm (.word w) = true) : calm (.word (w ++ [c])) = true := by
  simp only [calm, Bool.and_eq_true, Bool.not_eq_true'] at h ⊢
  refine ⟨?_, ?_⟩
  · cases e : (w ++ [c]).isPrefixOf (str! "begin") with
    | false => rfl
    | true => rw [prefix_of_append e] at h; exact absurd h.1 (by simp)
  · cases e : (w ++ [c]).isPrefixOf (str! "end") with
    | false => rfl
    | true => rw [prefix_of_append e] at h; exact absurd h.2 (by simp)

theorem calm_word_ne {w : Str} (h : calm (.word w) = true) : w ≠ str! "begin" ∧ w ≠ str! "end" := by
  constructor <;> rintro rfl <;> exact absurd h (by decide)

/-- Reading from inside a harmless control word instead of from a text makes no difference for the environments. -/
theorem readText_word {w : Str} (hw : calm (.word w) = true) {a b : List Str} {s : Str} {r : Reading}
    (h : readText (.text, a) s = some (r, b)) (hr : calm r = true) :
    ∃ r', calm r' = true ∧ readText (.word w, a) s = some (r', b) := by
  induction s generalizing w with
  | nil => cases h; exact ⟨.word w, hw, rfl⟩
  | cons c s ih =>
    obtain ⟨h1, h2⟩ := calm_word_ne hw
    simp only [readText, readChar] at h ⊢
    by_cases hc : isAsciiAlpha c = true
    · have h3 : plainRead c = .text := by
        unfold plainRead
        have e1 : c ≠ '\\' := by rintro rfl; exact absurd hc (by decide)
        have e2 : c ≠ '%' := by rintro rfl; exact absurd hc (by decide)
        simp [e1, e2]
      rw [h3] at h
      rw [if_pos hc]
      exact ih (calm_word_more hw) h
    · rw [if_neg hc, if_neg (fun e => h1 e.2), if_neg (fun e => h2 e.2)]
      exact ⟨r, hr, h⟩

/-- Reading the string from any harmless state ends in a harmless state and turns the open environments `a` into `b`. -/
def Turns (s : Str) (a b : List Str) : Prop :=
  ∀ r, calm r = true → ∃ r', calm r' = true ∧ readText (r, a) s = some (r', b)

/-- The string leaves the environments alone. -/
abbrev Settled (s : Str) : Prop := Turns s [] []

theorem turns_of_text {s : Str} {a b : List Str} {r : Reading} (h : readText (.text, a) s = some (r, b))
    (hr : calm r = true) : Turns s a b := by
  intro r0 h0
  cases r0 with
  | text => exact ⟨r, hr, h⟩
  | word w => exact readText_word h0 h hr
  | comment => cases h0
  | backslash => cases h0
  | name => cases h0

theorem settled_iff (s : Str) : Settled s ↔ BalancedEnvironments s := by
  constructor
  · intro h
    obtain ⟨r, h1, h2⟩ := h .text rfl
    exact ⟨r, h2, h1⟩
  · rintro ⟨r, h1, h2⟩
    exact turns_of_text h1 h2

/-- The check of a given string. -/
def turnsCheck (s : Str) (a b : List Str) : Bool :=
  match readText (.text, a) s with
  | some (r, b') => b' == b && calm r
  | none => false

theorem turns_lit {s : Str} {a b : List Str} (h : turnsCheck s a b = true) : Turns s a b := by
  unfold turnsCheck at h
  split at h
  · rename_i r b' hr
    simp only [Bool.and_eq_true, beq_iff_eq] at h
    rw [h.1] at hr
    exact turns_of_text hr h.2
  · cases h

theorem turns_append {s t : Str} {a b c : List Str} (h1 : Turns s a b) (h2 : Turns t b c) : Turns (s ++ t) a c := by
  intro r hr
  obtain ⟨r1, k1, k2⟩ := h1 r hr
  obtain ⟨r2, k3, k4⟩ := h2 r1 k1
  exact ⟨r2, k3, by rw [readText_append, k2]; exact k4⟩

theorem turns_frame {s : Str} {a b : List Str} (h : Turns s a b) (k : List Str) : Turns s (a ++ k) (b ++ k) := by
  intro r hr
  obtain ⟨r1, k1, k2⟩ := h r hr
  exact ⟨r1, k1, readText_frame k k2⟩

theorem settled_any {s : Str} (h : Settled s) (a : List Str) : Turns s a a := turns_frame h a

theorem settled_nil : Settled [] := turns_lit rfl

theorem settled_append {s t : Str} (h1 : Settled s) (h2 : Settled t) : Settled (s ++ t) := turns_append h1 h2

/-- A string followed by one that leaves the environments alone. -/
theorem turns_settled {s t : Str} {a b : List Str} (h1 : Turns s a b) (h2 : Settled t) : Turns (s ++ t) a b :=
  turns_append h1 (settled_any h2 b)

theorem settled_turns {s t : Str} {a b : List Str} (h1 : Settled s) (h2 : Turns t a b) : Turns (s ++ t) a b :=
  turns_append (settled_any h1 a) h2

/-- A text without backslashes and percent signs. -/
theorem settled_plain {s : Str} (h1 : '\\' ∉ s) (h2 : '%' ∉ s) : Settled s := by
  have key : ∀ s : Str, '\\' ∉ s → '%' ∉ s → readText (.text, []) s = some (.text, []) := by
    intro s
    induction s with
    | nil => intros; rfl
    | cons c s ih =>
      intro h1 h2
      have e1 : c ≠ '\\' := fun e => h1 (by simp [e])
      have e2 : c ≠ '%' := fun e => h2 (by simp [e])
      simp only [readText, readChar, plainRead, if_neg e1, if_neg e2, Option.bind_some]
      exact ih (fun e => h1 (by simp [e])) (fun e => h2 (by simp [e]))
  exact turns_of_text (key s h1 h2) rfl

theorem settled_decimal (n : Nat) : Settled (decimal n) := by
  have h : ∀ c ∈ decimal n, c.isDigit = true := fun c hc => Nat.isDigit_of_mem_toDigits (by omega) (by omega) hc
  refine settled_plain ?_ ?_
  · intro e; exact absurd (h _ e) (by decide)
  · intro e; exact absurd (h _ e) (by decide)

theorem settled_given {α : Type} {o : Option α} {f : α → Str} (h : ∀ x, o = some x → Settled (f x)) : Settled (given o f) := by
  cases o with
  | none => exact settled_nil
  | some x => exact h x rfl

theorem settled_flag {b : Bool} {s : Str} (h : Settled s) : Settled (flag b s) := by
  cases b
  · exact settled_nil
  · exact h

theorem settled_bracketed {s : Str} (h : Settled s) : Settled (bracketed s) := by
  unfold bracketed
  split
  · exact settled_nil
  · exact settled_append (settled_append (turns_lit rfl) h) (turns_lit rfl)

theorem settled_ite {p : Prop} [Decidable p] {s t : Str} (h1 : Settled s) (h2 : Settled t) : Settled (if p then s else t) := by
  split
  · exact h1
  · exact h2

theorem settled_joinWith {sep : Str} {l : List Str} (hs : Settled sep) (h : ∀ s ∈ l, Settled s) : Settled (joinWith sep l) := by
  induction l with
  | nil => exact settled_nil
  | cons x l ih =>
    cases l with
    | nil => exact h x (by simp)
    | cons y ys =>
      exact settled_append (settled_append (h x (by simp)) hs) (ih fun s hs' => h s (by simp at hs' ⊢; tauto))

theorem settled_flatten {l : List Str} (h : ∀ s ∈ l, Settled s) : Settled l.flatten := by
  induction l with
  | nil => exact settled_nil
  | cons x l ih => exact settled_append (h x (by simp)) (ih fun s hs => h s (by simp [hs]))

theorem settled_option {key value : Str} (hk : Settled key) (hv : Settled value) : Settled (option key value) :=
  settled_append (settled_append (settled_append hk (turns_lit rfl)) hv) (turns_lit rfl)

/-! ## Names of environments and commands -/

theorem readText_name (o : Bool) (n more : Str) (a : List Str) (h : '}' ∉ more) :
    readText (.name o n, a) more = some (.name o (n ++ more), a) := by
  induction more generalizing n with
  | nil => simp [readText]
  | cons c more ih =>
    have hc : c ≠ '}' := fun e => h (by simp [e])
    simp only [readText, readChar, if_neg hc, Option.bind_some]
    rw [ih _ (fun e => h (by simp [e]))]
    simp

theorem turns_begin (name : Str) (h : '}' ∉ name) : Turns (str! "\\begin{" ++ name ++ str! "}") [] [name] := by
  refine turns_of_text (r := .text) ?_ rfl
  rw [readText_append, readText_append]
  have h1 : readText (.text, []) (str! "\\begin{") = some (.name true [], []) := by decide
  rw [h1]
  simp only [Option.bind_some]
  rw [readText_name _ _ _ _ h]
  rfl

theorem turns_end (name : Str) (h : '}' ∉ name) : Turns (str! "\\end{" ++ name ++ str! "}") [name] [] := by
  refine turns_of_text (r := .text) ?_ rfl
  rw [readText_append, readText_append]
  have h1 : readText (.text, [name]) (str! "\\end{") = some (.name false [], [name]) := by rfl
  rw [h1]
  simp only [Option.bind_some]
  rw [readText_name _ _ _ _ h]
  simp [readText, readChar, closeName]

theorem readText_word_letters (w more : Str) (a : List Str) (h1 : '\\' ∉ more) (h2 : '%' ∉ more) (h3 : '{' ∉ more) :
    readText (.word w, a) more = some (.word (w ++ more), a) ∨ readText (.word w, a) more = some (.text, a) := by
  have plain : ∀ s : Str, '\\' ∉ s → '%' ∉ s → readText (.text, a) s = some (.text, a) := by
    intro s
    induction s with
    | nil => intros; rfl
    | cons c s ih =>
      intro h1 h2
      have e1 : c ≠ '\\' := fun e => h1 (by simp [e])
      have e2 : c ≠ '%' := fun e => h2 (by simp [e])
      simp only [readText, readChar, plainRead, if_neg e1, if_neg e2, Option.bind_some]
      exact ih (fun e => h1 (by simp [e])) (fun e => h2 (by simp [e]))
  induction more generalizing w with
  | nil => left; simp [readText]
  | cons c more ih =>
    have e1 : c ≠ '\\' := fun e => h1 (by simp [e])
    have e2 : c ≠ '%' := fun e => h2 (by simp [e])
    have e3 : c ≠ '{' := fun e => h3 (by simp [e])
    have h1' : '\\' ∉ more := fun e => h1 (by simp [e])
    have h2' : '%' ∉ more := fun e => h2 (by simp [e])
    have h3' : '{' ∉ more := fun e => h3 (by simp [e])
    simp only [readText, readChar]
    by_cases hc : isAsciiAlpha c = true
    · rw [if_pos hc]
      simp only [Option.bind_some]
      have := ih (w ++ [c]) h1' h2' h3'
      simpa using this
    · rw [if_neg hc, if_neg (fun e => e3 e.1), if_neg (fun e => e3 e.1)]
      right
      simp only [plainRead, if_neg e1, if_neg e2, Option.bind_some]
      exact plain more h1' h2'

/-- A command of any name but the two for environments. -/
theorem settled_command (name : Str) (h1 : '\\' ∉ name) (h2 : '%' ∉ name) (h3 : '{' ∉ name) (h4 : name ≠ str! "begin")
    (h5 : name ≠ str! "end") : Settled (str! "\\" ++ name ++ str! "{") := by
  have plain : ∀ s : Str, '\\' ∉ s → '%' ∉ s → readText (.text, []) s = some (.text, []) := by
    intro s
    induction s with
    | nil => intros; rfl
    | cons c s ih =>
      intro h1 h2
      have e1 : c ≠ '\\' := fun e => h1 (by simp [e])
      have e2 : c ≠ '%' := fun e => h2 (by simp [e])
      simp only [readText, readChar, plainRead, if_neg e1, if_neg e2, Option.bind_some]
      exact ih (fun e => h1 (by simp [e])) (fun e => h2 (by simp [e]))
  refine turns_of_text (r := .text) ?_ rfl
  rw [readText_append, readText_append]
  have h0 : readText (.text, []) (str! "\\") = some (.backslash, []) := by decide
  rw [h0]
  simp only [Option.bind_some]
  cases name with
  | nil => decide
  | cons c name =>
    have e1 : c ≠ '\\' := fun e => h1 (by simp [e])
    have e2 : c ≠ '%' := fun e => h2 (by simp [e])
    have h1' : '\\' ∉ name := fun e => h1 (by simp [e])
    have h2' : '%' ∉ name := fun e => h2 (by simp [e])
    have h3' : '{' ∉ name := fun e => h3 (by simp [e])
    simp only [readText, readChar]
    by_cases hc : isAsciiAlpha c = true
    · rw [if_pos hc]
      simp only [Option.bind_some]
      rcases readText_word_letters [c] name [] h1' h2' h3' with h | h
      · rw [h]
        simp only [Option.bind_some, List.cons_append, List.nil_append]
        rw [if_neg (by decide), if_neg (fun e => h4 e.2), if_neg (fun e => h5 e.2)]
        rfl
      · rw [h]; rfl
    · rw [if_neg hc]
      simp only [Option.bind_some]
      rw [plain name h1' h2']
      rfl

/-! ## Escaped texts and comments -/

theorem settled_emit (c : Char) (rest : Str) : Settled (emitText c rest) := by
  have hsp : Settled (spaceFor rest) := by
    rcases spaceFor_cases rest with h | h <;> rw [h]
    · exact settled_nil
    · exact turns_lit rfl
  unfold emitText
  by_cases hc : c ∈ specials
  · have htab : ∀ c ∈ specials, ∃ e, textEscape? c = some e ∧ turnsCheck e [] [] = true := by decide +kernel
    obtain ⟨e, h1, h2⟩ := htab c hc
    rw [h1]
    exact settled_append (turns_lit h2) hsp
  · rw [textEscape?_none hc]
    refine settled_plain ?_ ?_
    · intro e; simp only [List.mem_singleton] at e; subst e; exact hc (by decide)
    · intro e; simp only [List.mem_singleton] at e; subst e; exact hc (by decide)

/-- Escaped texts have no environments. -/
theorem settled_escapeText (s : Str) : Settled (escapeText s) := by
  induction s using escapeText.induct with
  | case1 => exact settled_nil
  | case2 c => exact settled_emit c []
  | case3 c2 rest ih => rw [escapeText, if_pos rfl]; exact settled_append (settled_emit c2 rest) ih
  | case4 c c2 rest hc ih => rw [escapeText, if_neg hc]; exact settled_append (settled_emit c _) ih

theorem readText_comment (l : Str) (a : List Str) (h : '\n' ∉ l) : readText (.comment, a) (l ++ str! "\n") = some (.text, a) := by
  induction l with
  | nil => rfl
  | cons c l ih =>
    have hc : c ≠ '\n' := fun e => h (by simp [e])
    simp only [List.cons_append, readText, readChar, if_neg hc, Option.bind_some]
    exact ih fun e => h (by simp [e])

/-- Comments have no environments, whatever their text is. -/
theorem settled_comment (s : Str) : Settled (commentStr s) := by
  refine settled_append (settled_flatten fun x hx => ?_) (turns_lit rfl)
  obtain ⟨l, hl, rfl⟩ := List.mem_map.1 hx
  refine turns_of_text (r := .text) ?_ rfl
  have h1 : readText (.text, []) (str! "% ") = some (.comment, []) := by decide
  rw [List.append_assoc, readText_append, h1]
  exact readText_comment l [] (strLinesAux_noNewline _ _ (by simp) l hl)

end Rustla
