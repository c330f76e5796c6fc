import Verif.Model.Lines
import Verif.Lemmas.Strings
/-! # C07-C09: line readers -/
namespace Rustla

/-! ## Specification -/

/-- A line a text block with the given settings may contain. -/
def TextLineOk (indentAllowed : Bool) (alignment : Option Nat) (untilBlank : Bool) (l : Str) : Prop :=
  if isBlank l then untilBlank = false
  else (indentAllowed = true ∨ indentOf l = 0) ∧ ∀ a, alignment = some a → indentOf l = a

/-- How a line of a text block is handed out: blank lines as empty lines, others with or without indentation. -/
def textLineOut (removeIndent : Bool) (l : Str) : Str :=
  if isBlank l then [] else if removeIndent then trimStart l else l

/-- `taken` is the longest prefix of `lines` all of whose elements satisfy `p`. -/
def MaximalRun (p : Str → Prop) (lines taken rest : List Str) : Prop :=
  lines = taken ++ rest ∧ (∀ l ∈ taken, p l) ∧ (∀ l ls, rest = l :: ls → ¬ p l)

theorem readTextLoop_spec (ia ri : Bool) (al : Option Nat) (ub : Bool) (ls : List Str) :
    ∃ taken rest, MaximalRun (TextLineOk ia al ub) ls taken rest ∧
      readTextLoop ia ri al ub ls = taken.map (textLineOut ri) := by
  induction ls with
  | nil => exact ⟨[], [], ⟨rfl, by simp, by simp⟩, rfl⟩
  | cons l ls ih =>
    obtain ⟨t, r, ⟨h1, h2, h3⟩, h4⟩ := ih
    by_cases hok : TextLineOk ia al ub l
    · refine ⟨l :: t, r, ⟨by simp [h1], by simpa using ⟨hok, h2⟩, h3⟩, ?_⟩
      unfold TextLineOk at hok
      by_cases hb : isBlank l
      · simp only [hb, if_true] at hok
        simp [readTextLoop, hb, hok, textLineOut, trim_of_blank hb, ← h4]
      · simp only [hb, Bool.false_eq_true, if_false] at hok
        obtain ⟨ho1, ho2⟩ := hok
        have e1 : (!ia && decide (indentOf l > 0)) = false := by
          rcases ho1 with h | h <;> simp [h]
        have e2 : misaligned al (indentOf l) = false := by
          cases al with
          | none => rfl
          | some a => simpa [misaligned] using (ho2 a rfl).symm
        simp only [readTextLoop, hb, e1, e2, Bool.false_eq_true, if_false, h4, textLineOut, List.map_cons]
    · refine ⟨[], l :: ls, ⟨rfl, by simp, ?_⟩, ?_⟩
      · intro x xs hx; simp only [List.cons.injEq] at hx; rw [← hx.1]; exact hok
      · unfold TextLineOk at hok
        by_cases hb : isBlank l
        · simp only [hb, if_true] at hok
          cases ub <;> simp_all [readTextLoop]
        · simp only [hb, Bool.false_eq_true, if_false] at hok
          simp only [readTextLoop, hb, Bool.false_eq_true, if_false, List.map_nil]
          by_cases e1 : (!ia && decide (indentOf l > 0)) = true
          · simp [e1]
          · have e1' : ia = true ∨ indentOf l = 0 := by
              cases ia <;> simp_all
            have : ¬ ∀ a, al = some a → indentOf l = a := fun h => hok ⟨e1', h⟩
            cases al with
            | none => exact absurd (by simp) this
            | some a =>
              have : ¬ indentOf l = a := by simpa using this
              simp [misaligned, Ne.symm this]

/-- **C07** Reading a text block from an existing line returns the maximal run of acceptable lines that
starts there, in order, each with its content, and the number of these lines as the offset. -/
theorem C07_text_block (src : List Str) (start : Nat) (ia ri : Bool) (al : Option Nat) (ub : Bool)
    (h : start ≤ src.length) :
    ∃ taken rest, MaximalRun (TextLineOk ia al ub) (src.drop start) taken rest ∧
      readTextBlock src start ia ri al ub = .ok (taken.map (textLineOut ri), taken.length) ∧
      start + taken.length ≤ src.length := by
  obtain ⟨t, r, hm, he⟩ := readTextLoop_spec ia ri al ub (src.drop start)
  refine ⟨t, r, hm, ?_, ?_⟩
  · simp [readTextBlock, Nat.not_lt.mpr h, he]
  · have := congrArg List.length hm.1
    simp at this; omega

/-- **C07**, the setting used for paragraphs: the lines up to the first blank line, unchanged. -/
theorem C07_paragraph (src : List Str) (start : Nat) (h : start ≤ src.length) :
    readTextBlock src start true false none true =
      .ok ((src.drop start).takeWhile (fun l => !isBlank l),
        ((src.drop start).takeWhile (fun l => !isBlank l)).length) := by
  have : ∀ ls : List Str, readTextLoop true false none true ls = ls.takeWhile (fun l => !isBlank l) := by
    intro ls
    induction ls with
    | nil => rfl
    | cons l ls ih => by_cases hb : isBlank l <;> simp [readTextLoop, misaligned, hb, ih]
  simp [readTextBlock, Nat.not_lt.mpr h, this]

/-- **C07** Reading from behind the end of the source panics. -/
theorem C07_behind_the_end (src : List Str) (start : Nat) (ia ri : Bool) (al : Option Nat) (ub : Bool)
    (h : src.length < start) : ∃ p, readTextBlock src start ia ri al ub = .error p := by
  simp [readTextBlock, h]

example : readTextBlock [str! "", str! "ab", str! "  cd", str! " ", str! "e"] 1 true true none true
    = .ok ([str! "ab", str! "cd"], 2) := by decide

/-! ## C08 -/

/-- A line (other than a first line with known indentation) that an indented block may contain. -/
def IndentLineOk (untilBlank : Bool) (blockIndent : Option Nat) (force : Bool) (l : Str) : Prop :=
  if isBlank l then untilBlank = false
  else 1 ≤ indentOf l ∧ ∀ b, blockIndent = some b → b ≤ indentOf l ∧ (force = true → indentOf l = b)

/-- The line before the first line of `rest`, if any. -/
def lineBefore (prev : Option Str) (taken : List Str) : Option Str := taken.getLast?.or prev

theorem readIndentedLoop_spec (ub : Bool) (bi : Option Nat) (fo : Bool) (ls : List Str) :
    ∀ (prev : Option Str) (m : Option Nat), ∃ rest,
      MaximalRun (IndentLineOk ub bi fo) ls (readIndentedLoop ub bi fo ls prev m).lines rest ∧
      -- the loop is left early exactly at a non-blank line
      ((readIndentedLoop ub bi fo ls prev m).loopBroken = true ↔ ∃ l r, rest = l :: r ∧ isBlank l = false) ∧
      ((readIndentedLoop ub bi fo ls prev m).loopBroken = true →
        (readIndentedLoop ub bi fo ls prev m).blankFinish =
          ((lineBefore prev (readIndentedLoop ub bi fo ls prev m).lines).map isBlank).getD false) := by
  induction ls with
  | nil => intro prev m; exact ⟨[], ⟨rfl, by simp [readIndentedLoop], by simp⟩, by simp [readIndentedLoop], by simp [readIndentedLoop]⟩
  | cons l ls ih =>
    intro prev m
    by_cases hok : IndentLineOk ub bi fo l
    · have hstep : ∃ m', readIndentedLoop ub bi fo (l :: ls) prev m =
          { readIndentedLoop ub bi fo ls (some l) m' with
            lines := l :: (readIndentedLoop ub bi fo ls (some l) m').lines } := by
        unfold IndentLineOk at hok
        by_cases hb : isBlank l
        · simp only [hb, if_true] at hok
          simp only [readIndentedLoop, hb, hok, Bool.not_true, Bool.false_and, Bool.false_eq_true, if_false, Bool.and_false]
          exact ⟨_, rfl⟩
        · simp only [hb, Bool.false_eq_true, if_false] at hok
          have e : (decide (indentOf l < 1) || breakWhenNotAligned bi fo (indentOf l)) = false := by
            have h1 : ¬ indentOf l < 1 := by omega
            cases bi with
            | none => simp [h1, breakWhenNotAligned]
            | some b =>
              have := hok.2 b rfl
              by_cases hf : fo = true
              · simp [breakWhenNotAligned, hf, ← this.2 hf]; omega
              · simp [breakWhenNotAligned, hf, this.1]; omega
          simp only [readIndentedLoop, hb, e, Bool.not_false, Bool.true_and, Bool.false_eq_true, if_false, Bool.false_and]
          exact ⟨_, rfl⟩
      obtain ⟨m', hstep⟩ := hstep
      obtain ⟨rest, ⟨h1, h2, h3⟩, h4, h5⟩ := ih (some l) m'
      refine ⟨rest, ?_, ?_, ?_⟩
      · rw [hstep]; exact ⟨by simp [← h1], by simpa using ⟨hok, h2⟩, h3⟩
      · rw [hstep]; exact h4
      · rw [hstep]
        intro hb
        have := h5 hb
        simp only [this, lineBefore]
        cases hl : (readIndentedLoop ub bi fo ls (some l) m').lines with
        | nil => simp
        | cons a as => simp [List.getLast?_cons]
    · refine ⟨l :: ls, ?_⟩
      have hnil : (readIndentedLoop ub bi fo (l :: ls) prev m).lines = [] ∧
          ((readIndentedLoop ub bi fo (l :: ls) prev m).loopBroken = !isBlank l) ∧
          (isBlank l = false → (readIndentedLoop ub bi fo (l :: ls) prev m).blankFinish = (prev.map isBlank).getD false) := by
        unfold IndentLineOk at hok
        by_cases hb : isBlank l
        · simp only [hb, if_true] at hok
          have : ub = true := by cases ub <;> simp_all
          simp [readIndentedLoop, hb, this]
        · simp only [hb, Bool.false_eq_true, if_false] at hok
          have e : (decide (indentOf l < 1) || breakWhenNotAligned bi fo (indentOf l)) = true := by
            by_cases h1 : indentOf l < 1
            · simp [h1]
            · have h1' : 1 ≤ indentOf l := by omega
              cases bi with
              | none => exact absurd ⟨h1', by simp⟩ hok
              | some b =>
                have h2 : ¬ (b ≤ indentOf l ∧ (fo = true → indentOf l = b)) := by
                  intro h; exact hok ⟨h1', by intro c hc; cases hc; exact h⟩
                by_cases hf : fo = true
                · simp [breakWhenNotAligned, hf]
                  right; intro heq; exact h2 ⟨by omega, fun _ => heq⟩
                · simp [breakWhenNotAligned, hf]
                  right
                  by_cases h3 : indentOf l < b
                  · exact h3
                  · exact absurd ⟨by omega, by simp [hf]⟩ h2
          simp only [readIndentedLoop, hb, e, Bool.not_false, Bool.true_and, if_true]
          exact ⟨trivial, trivial, fun _ => trivial⟩
      obtain ⟨hn1, hn2, hn3⟩ := hnil
      refine ⟨?_, ?_, ?_⟩
      · rw [hn1]
        refine ⟨rfl, by simp, ?_⟩
        intro x xs hx; simp only [List.cons.injEq] at hx; rw [← hx.1]; exact hok
      · rw [hn2]; simp
      · rw [hn2, hn1]; intro h
        rw [hn3 (by simpa using h)]; simp [lineBefore]

/-- The minimal indentation the loop ends with: the given block indentation, or a number that is at most
the indentation of every non-blank line read. -/
theorem readIndentedLoop_minimal (ub : Bool) (fo : Bool) (ls : List Str) :
    ∀ (bi : Option Nat) (prev : Option Str) (m : Option Nat), (∀ b, bi = some b → m = some b) →
      ∀ k, (readIndentedLoop ub bi fo ls prev m).minimal = some k →
      (∀ j, m = some j → k ≤ j) ∧
      (∀ l ∈ (readIndentedLoop ub bi fo ls prev m).lines, isBlank l = false → k ≤ indentOf l) ∧
      (∀ b, bi = some b → k = b) := by
  induction ls with
  | nil =>
    intro bi prev m hm k hk
    simp only [readIndentedLoop] at hk ⊢
    refine ⟨fun j hj => ?_, by simp, fun b hb => ?_⟩
    · rw [hj] at hk; cases hk; exact Nat.le_refl _
    · rw [hm b hb] at hk; cases hk; rfl
  | cons l ls ih =>
    intro bi prev m hm k hk
    simp only [readIndentedLoop] at hk ⊢
    split at hk
    · rename_i hc
      simp only [hc, if_true]
      exact ⟨fun j hj => by rw [hj] at hk; cases hk; exact Nat.le_refl _, by simp,
        fun b hb => by rw [hm b hb] at hk; cases hk; rfl⟩
    · rename_i hc
      split at hk
      · rename_i hc2
        simp only [hc, hc2, if_true]
        exact ⟨fun j hj => by rw [hj] at hk; cases hk; exact Nat.le_refl _, by simp,
          fun b hb => by rw [hm b hb] at hk; cases hk; rfl⟩
      · rename_i hc2
        simp only [hc, hc2]
        dsimp only at hk
        cases bi with
        | some b =>
          have hmb := hm b rfl
          subst hmb
          obtain ⟨a1, a2, a3⟩ := ih (some b) (some l) (some b) (by simp) k hk
          have hkb := a3 b rfl
          refine ⟨a1, ?_, a3⟩
          intro x hx hbx
          simp only [Bool.false_eq_true, if_false, List.mem_cons] at hx
          rcases hx with rfl | hx
          · simp only [hbx, Bool.not_false, Bool.true_and, Bool.or_eq_true, decide_eq_true_eq] at hc
            subst hkb
            by_cases hf : fo = true
            · simp [breakWhenNotAligned, hf] at hc; omega
            · simp [breakWhenNotAligned, hf] at hc; omega
          · exact a2 x hx hbx
        | none =>
          cases m with
          | none =>
            obtain ⟨a1, a2, _⟩ := ih none (some l) (some (indentOf l)) (by simp) k hk
            refine ⟨by simp, ?_, by simp⟩
            intro x hx hbx
            simp only [Bool.false_eq_true, if_false, List.mem_cons] at hx
            rcases hx with rfl | hx
            · exact a1 _ rfl
            · exact a2 x hx hbx
          | some j =>
            have hi : ∀ x, x = l → isBlank x = false → 0 < indentOf l := by
              rintro x rfl hbx
              simp only [hbx, Bool.not_false, Bool.true_and] at hc
              simp at hc; omega
            obtain ⟨a1, a2, _⟩ := ih none (some l) _ (by simp) k hk
            refine ⟨?_, ?_, by simp⟩
            · intro j' hj'; cases hj'
              by_cases h0 : indentOf l > 0
              · have := a1 (min j (indentOf l)) (by simp [updateMinimal, h0]); omega
              · exact a1 j (by simp [updateMinimal, h0])
            · intro x hx hbx
              simp only [Bool.false_eq_true, if_false, List.mem_cons] at hx
              rcases hx with rfl | hx
              · have h0 := hi _ rfl hbx
                have := a1 (min j (indentOf x)) (by simp [updateMinimal, h0]); omega
              · exact a2 x hx hbx

/-- The indentation of the first line is known from outside. -/
def FirstKnown (blockIndent firstIndent : Option Nat) : Prop := blockIndent ≠ none ∨ firstIndent ≠ none

/-- `out` is `l` without some of its leading white space; non-blank lines lose exactly `n` columns. -/
def Dedented (n : Nat) (l out : Str) : Prop :=
  ∃ ws, l = ws ++ out ∧ (∀ c ∈ ws, isWs c = true) ∧ (isBlank l = false → ws.length = n)

theorem dedented_drop (n : Nat) (l : Str) (h : isBlank l = false → n ≤ indentOf l) :
    Dedented n l (l.drop n) := by
  by_cases hb : isBlank l
  · refine ⟨l.take n, (List.take_append_drop n l).symm, ?_, by simp [hb]⟩
    intro c hc; exact (isBlank_iff l).mp hb c (List.mem_of_mem_take hc)
  · have hn := h (by simpa using hb)
    have hlen : indentOf l ≤ l.length := by
      unfold indentOf; exact (List.takeWhile_sublist isWs).length_le
    refine ⟨l.take n, (List.take_append_drop n l).symm, ?_, fun _ => by simp; omega⟩
    intro c hc
    have : l.take n = (l.takeWhile isWs).take n := by
      conv => lhs; rw [← List.takeWhile_append_dropWhile (p := isWs) (l := l)]
      rw [List.take_append_of_le_length hn]
    rw [this] at hc
    have := List.mem_of_mem_take hc
    exact mem_takeWhile _ _ _ this

/-- **C08** A successful read returns the lines of a prefix of the remaining source — the first line if its
indentation is known, then the maximal run of sufficiently indented lines — one output line for each source
line, in order; the offset is their number and stays inside the source. -/
theorem C08_indented_block (src : List Str) (start : Nat) (ub st : Bool) (bi fi : Option Nat) (fo : Bool)
    (lines : List Str) (m off : Nat) (bf : Bool)
    (h : readIndentedBlock src start ub st bi fi fo = .ok (.ok lines m off bf)) :
    ∃ first run rest, src.drop start = first ++ run ++ rest ∧
      (FirstKnown bi fi → first.length = 1) ∧ (¬ FirstKnown bi fi → first = []) ∧
      MaximalRun (IndentLineOk ub bi fo) (run ++ rest) run rest ∧
      off = (first ++ run).length ∧ lines.length = off ∧ start + off ≤ src.length ∧
      (st = false → lines = first ++ run) ∧
      (st = true → lines = first.map (·.drop ((fi.or bi).getD 0)) ++ run.map (·.drop m) ∧
        ∀ l ∈ run, Dedented m l (l.drop m)) ∧
      (∀ b, bi = some b → m = b) ∧
      (bf = false ↔ ∃ l r, rest = l :: r ∧ isBlank l = false ∧
        (((first ++ run).getLast?.map isBlank).getD false) = false) := by
  unfold readIndentedBlock at h
  by_cases he : src.isEmpty
  · simp [he] at h
  simp only [he, Bool.false_eq_true, if_false] at h
  by_cases hs : src.length < start
  · simp [hs] at h
  simp only [hs, if_false] at h
  cases hf : fi.or bi with
  | none =>
    have hfi : fi = none ∧ bi = none := by cases fi <;> cases bi <;> simp_all
    obtain ⟨rfl, rfl⟩ := hfi
    simp only [Option.or_none] at h
    obtain ⟨rest, hmax, hlb, hbf⟩ := readIndentedLoop_spec ub none fo (src.drop start) none none
    have hmin := readIndentedLoop_minimal ub fo (src.drop start) none none none (by simp)
    generalize hr : readIndentedLoop ub none fo (src.drop start) none none = r at *
    cases hrm : r.minimal with
    | none => simp [hrm] at h
    | some k =>
      simp only [hrm, Except.ok.injEq, IndentedBlock.ok.injEq] at h
      obtain ⟨h1, h2, h3, h4⟩ := h
      subst h2
      obtain ⟨_, hle, _⟩ := hmin k hrm
      have hlen : lines.length = r.lines.length := by
        rw [← h1]; split <;> simp [stripBlock]
      have hl2 := congrArg List.length hmax.1
      simp only [List.length_drop, List.length_append] at hl2
      refine ⟨[], r.lines, rest, by simpa using hmax.1, by simp [FirstKnown], by simp, ?_, ?_, ?_, ?_, ?_, ?_, by simp, ?_⟩
      · exact ⟨rfl, hmax.2.1, hmax.2.2⟩
      · simp; rw [← h3, h1, hlen]
      · rw [← h3, h1]
      · rw [← h3, h1, hlen]; omega
      · intro hst; simp [hst] at h1; simp [h1]
      · intro hst
        refine ⟨by simp [hst, stripBlock] at h1; simp [h1], ?_⟩
        intro l hl
        exact dedented_drop k l (hle l hl)
      · rw [← h4]
        simp only [List.nil_append]
        cases hb : r.loopBroken with
        | false =>
          simp only [Bool.false_eq_true, if_false]
          constructor
          · simp
          · rintro ⟨l, x, e1, e2, _⟩
            have := hlb.mpr ⟨l, x, e1, e2⟩
            simp [hb] at this
        | true =>
          simp only [if_true]
          have h5 := hbf hb
          obtain ⟨l, x, e1, e2⟩ := hlb.mp hb
          rw [h5]
          simp only [lineBefore, Option.or_none]
          exact ⟨fun h => ⟨l, x, e1, e2, h⟩, fun ⟨_, _, _, _, h⟩ => h⟩
  | some f =>
    have hk : FirstKnown bi fi := by unfold FirstKnown; cases fi <;> cases bi <;> simp_all
    cases hd : src.drop start with
    | nil => simp [hf, hd] at h
    | cons l0 ls =>
      simp only [hf, hd] at h
      obtain ⟨rest, hmax, hlb, hbf⟩ := readIndentedLoop_spec ub bi fo ls (some l0) bi
      have hmin := readIndentedLoop_minimal ub fo ls bi (some l0) bi (by simp)
      generalize hr : readIndentedLoop ub bi fo ls (some l0) bi = r at *
      cases hrm : r.minimal with
      | none => simp [hrm] at h
      | some k =>
        simp only [hrm, Except.ok.injEq, IndentedBlock.ok.injEq] at h
        obtain ⟨h1, h2, h3, h4⟩ := h
        subst h2
        obtain ⟨_, hle, hbk⟩ := hmin k hrm
        have hlen : lines.length = r.lines.length + 1 := by
          rw [← h1]; split <;> simp [stripBlock]
        have hl2 := congrArg List.length hd
        have hl3 := congrArg List.length hmax.1
        simp only [List.length_drop, List.length_cons, List.length_append] at hl2 hl3
        refine ⟨[l0], r.lines, rest, by simp [hmax.1.symm], by simp, fun h => absurd hk h, ?_, ?_, ?_, ?_, ?_, ?_, hbk, ?_⟩
        · exact ⟨rfl, hmax.2.1, hmax.2.2⟩
        · simp; rw [← h3, h1, hlen]
        · rw [← h3, h1]
        · rw [← h3, h1, hlen]; omega
        · intro hst; simp [hst] at h1; simp [h1]
        · intro hst
          refine ⟨by simp [hst, stripBlock] at h1; simp [h1], ?_⟩
          intro l hl
          exact dedented_drop k l (hle l hl)
        · rw [← h4]
          cases hb : r.loopBroken with
          | false =>
            simp only [Bool.false_eq_true, if_false]
            constructor
            · simp
            · rintro ⟨l, x, e1, e2, _⟩
              have := hlb.mpr ⟨l, x, e1, e2⟩
              simp [hb] at this
          | true =>
            simp only [if_true]
            have h5 := hbf hb
            obtain ⟨l, x, e1, e2⟩ := hlb.mp hb
            rw [h5]
            have : lineBefore (some l0) r.lines = ([l0] ++ r.lines).getLast? := by
              cases hrl : r.lines with
              | nil => simp [lineBefore]
              | cons a as => simp [lineBefore, List.getLast?_cons]
            rw [this]
            exact ⟨fun h => ⟨l, x, e1, e2, h⟩, fun ⟨_, _, _, _, h⟩ => h⟩

theorem readIndentedLoop_minimal_some (ub : Bool) (bi : Option Nat) (fo : Bool) (ls : List Str) :
    ∀ (prev : Option Str) (m : Option Nat),
      (readIndentedLoop ub bi fo ls prev m).minimal = none ↔
        m = none ∧ (bi ≠ none ∨ (readIndentedLoop ub bi fo ls prev m).lines = []) := by
  induction ls with
  | nil => intro prev m; simp [readIndentedLoop]
  | cons l ls ih =>
    intro prev m
    simp only [readIndentedLoop]
    split
    · simp
    · split
      · simp
      · simp only []
        rw [ih]
        cases bi with
        | some b => simp [updateMinimal]
        | none =>
          cases m with
          | none => simp [updateMinimal]
          | some j => simp only [updateMinimal]; split <;> simp

/-- **C08** The reader fails only as follows: an empty source is reported as such; it panics when started
behind the end, when the first line has a known indentation but does not exist, and when no indentation is
known and the first line examined is not an indented (or permitted blank) line. -/
theorem C08_when_it_panics (src : List Str) (start : Nat) (ub st : Bool) (bi fi : Option Nat) (fo : Bool) :
    (∃ p, readIndentedBlock src start ub st bi fi fo = .error p) ↔
      src ≠ [] ∧ (src.length < start ∨ (FirstKnown bi fi ∧ src.length = start) ∨
        (bi = none ∧ ∃ first rest, src.drop start = first ++ rest ∧
          first.length = (if fi = none then 0 else 1) ∧
          ∀ l r, rest = l :: r → ¬ IndentLineOk ub bi fo l)) := by
  by_cases he : src = []
  · subst he; simp [readIndentedBlock]
  have he' : src.isEmpty = false := by simpa [List.isEmpty_iff] using he
  unfold readIndentedBlock
  simp only [he', Bool.false_eq_true, if_false, ne_eq, he, not_false_eq_true, true_and]
  by_cases hs : src.length < start
  · simp [hs]
  simp only [hs, if_false, false_or]
  have hrun : ∀ (ls : List Str) (prev : Option Str) (m : Option Nat),
      (readIndentedLoop ub bi fo ls prev m).lines = [] ↔ ∀ l r, ls = l :: r → ¬ IndentLineOk ub bi fo l := by
    intro ls prev m
    obtain ⟨rest, hmax, _, _⟩ := readIndentedLoop_spec ub bi fo ls prev m
    constructor
    · intro h; rw [h] at hmax
      intro l r hlr; exact hmax.2.2 l r (by simpa [hlr] using hmax.1.symm)
    · intro h
      cases hl : (readIndentedLoop ub bi fo ls prev m).lines with
      | nil => rfl
      | cons a as =>
        rw [hl] at hmax
        exact absurd (hmax.2.1 a (by simp)) (h a (as ++ rest) hmax.1)
  cases hf : fi.or bi with
  | none =>
    have hfi : fi = none ∧ bi = none := by cases fi <;> cases bi <;> simp_all
    obtain ⟨rfl, rfl⟩ := hfi
    have hm := readIndentedLoop_minimal_some ub none fo (src.drop start) none none
    simp only []
    cases hrm : (readIndentedLoop ub none fo (src.drop start) none none).minimal with
    | none =>
      simp only [hrm, true_iff, ne_eq, not_true_eq_false, false_or, true_and] at hm
      simp only [Except.error.injEq, exists_eq', true_iff]
      right
      exact ⟨by simp, [], src.drop start, by simp, by simp, (hrun _ _ _).mp hm⟩
    | some k =>
      simp only [hrm, reduceCtorEq, false_iff] at hm
      simp only [reduceCtorEq, exists_false, false_iff]
      rintro (⟨hk, _⟩ | ⟨_, first, rest, e1, e2, e3⟩)
      · simp [FirstKnown] at hk
      · simp at e2; subst e2
        simp at e1; subst e1
        exact hm ⟨trivial, Or.inr ((hrun _ _ _).mpr e3)⟩
  | some f =>
    have hk : FirstKnown bi fi := by unfold FirstKnown; cases fi <;> cases bi <;> simp_all
    cases hd : src.drop start with
    | nil =>
      have hl := congrArg List.length hd
      simp at hl
      simp only [Except.error.injEq, exists_eq', true_iff]
      left; exact ⟨hk, by omega⟩
    | cons l0 ls =>
      have hl := congrArg List.length hd
      simp at hl
      have hm := readIndentedLoop_minimal_some ub bi fo ls (some l0) bi
      simp only []
      cases hrm : (readIndentedLoop ub bi fo ls (some l0) bi).minimal with
      | none =>
        simp only [hrm, true_iff] at hm
        simp only [Except.error.injEq, exists_eq', true_iff]
        right
        have hbn := hm.1
        refine ⟨hbn, [l0], ls, rfl, ?_, ?_⟩
        · subst hbn; cases fi <;> simp_all
        · rcases hm.2 with h | h
          · exact absurd hbn h
          · exact (hrun _ _ _).mp h
      | some k =>
        simp only [hrm, reduceCtorEq, false_iff] at hm
        simp only [reduceCtorEq, exists_false, false_iff]
        rintro (⟨_, h⟩ | ⟨hbn, first, rest, e1, e2, e3⟩)
        · omega
        · subst hbn
          have hfi : fi ≠ none := by cases fi <;> simp_all
          rw [if_neg hfi] at e2
          match first, e2 with
          | [x], _ =>
            simp at e1
            obtain ⟨rfl, rfl⟩ := e1
            exact hm ⟨rfl, Or.inr ((hrun _ _ _).mpr e3)⟩

example : readIndentedBlock [str! "* ab", str! "  cd", str! "", str! "   e", str! "f"] 0 false true (some 2) (some 2) false
    = .ok (.ok [str! "ab", str! "cd", str! "", str! " e"] 2 4 false) := by decide
example : readIndentedBlock [str! "   ab", str! "  cd", str! "", str! "f"] 0 false true none none false
    = .ok (.ok [str! " ab", str! "cd", str! ""] 2 3 true) := by decide

/-! ## C09 -/

/-- **C09** Skipping empty lines moves the cursor over blank lines only, to the first non-blank line or to
the end of the source, reports the number of lines skipped, and changes nothing else. -/
theorem C09_skip_empty (src : List Str) (c : LineCursor) :
    let r := skipEmptyLines src c
    r.1.offset = c.offset + r.2 ∧ r.1.baseline = c.baseline ∧
      (∀ i, c.offset ≤ i → i < r.1.offset → ∃ l, src[i]? = some l ∧ isBlank l = true) ∧
      (∀ l, src[r.1.offset]? = some l → isBlank l = false) := by
  have key : ∀ (ls : List Str), (∀ i, i < countBlank ls → ∃ l, ls[i]? = some l ∧ isBlank l = true) ∧
      (∀ l, ls[countBlank ls]? = some l → isBlank l = false) := by
    intro ls
    induction ls with
    | nil => simp [countBlank]
    | cons l ls ih =>
      by_cases hb : isBlank l
      · simp only [countBlank, hb, if_true]
        refine ⟨?_, by simpa using ih.2⟩
        intro i hi
        cases i with
        | zero => exact ⟨l, rfl, hb⟩
        | succ i => simpa using ih.1 i (by omega)
      · simp [countBlank, hb]
  have := key (src.drop c.offset)
  refine ⟨rfl, rfl, ?_, ?_⟩
  · intro i h1 h2
    have h2' : i < c.offset + countBlank (src.drop c.offset) := h2
    obtain ⟨l, hl, hb⟩ := this.1 (i - c.offset) (by omega)
    refine ⟨l, ?_, hb⟩
    rw [List.getElem?_drop] at hl
    rwa [Nat.add_sub_cancel' h1] at hl
  · intro l hl
    refine this.2 l ?_
    rw [List.getElem?_drop]; exact hl

/-- **C09** for the variant that reports whether a further block exists. -/
theorem C09_skip_to_next_block (src : List Str) (c : LineCursor) :
    (skipToNextBlock src c).1 = (skipEmptyLines src c).1 ∧
      ((skipToNextBlock src c).2 = some () ↔
        ∃ l, src[(skipToNextBlock src c).1.offset]? = some l ∧ isBlank l = false) := by
  refine ⟨rfl, ?_⟩
  have h := (C09_skip_empty src c).2.2.2
  have e : (skipToNextBlock src c).1 = (skipEmptyLines src c).1 := rfl
  constructor
  · intro hs
    rw [e]
    have : (skipEmptyLines src c).1.offset < src.length := by
      have hs' : (if (skipEmptyLines src c).1.offset < src.length then some () else none) = some () := hs
      by_cases hlt : (skipEmptyLines src c).1.offset < src.length
      · exact hlt
      · rw [if_neg hlt] at hs'; cases hs'
    exact ⟨src[(skipEmptyLines src c).1.offset], List.getElem?_eq_getElem this, h _ (List.getElem?_eq_getElem this)⟩
  · rintro ⟨l, hl, _⟩
    have : (skipToNextBlock src c).1.offset < src.length := (List.getElem?_eq_some_iff.mp hl).1
    simp only [skipToNextBlock] at this ⊢
    exact if_pos this

example : skipEmptyLines [str! "a", str! " ", str! "", str! "b"] ⟨1, 7⟩ = (⟨3, 7⟩, 2) := by decide

end Rustla
