import Verif.Lemmas.Inline
import Verif.Props.Converters
import Verif.Props.Latex
import Mathlib.Data.List.SplitBy
import Verif.Spec.Inline
/-! # Inline parsing (C32, C33, C34, C35) -/
namespace Rustla

/-! ## Specification -/

/-- `Splits d s pieces d'`: going through the text `s` from left to right, one inline construct after the other,
each piece of text gives the nodes listed beside it; the document goes from `d` to `d'`. -/
inductive Splits : Option DocTree → Str → List (Str × List NodeType) → Option DocTree → Prop
  | done (d) : Splits d [] [] d
  | step {d s nodes k d' rest d''} (h : matchInlineStr d s = .ok (some (nodes, k, d'))) (h1 : 1 ≤ k) (h2 : k ≤ s.length)
      (hr : Splits d' (s.drop k) rest d'') : Splits d s ((s.take k, nodes) :: rest) d''

/-! ## One step -/

/-- Result of one step on a non-empty text. -/
theorem C32_step (d : Option DocTree) (s : Str) (hs : s ≠ []) :
    (∃ nodes k d', matchInlineStr d s = .ok (some (nodes, k, d')) ∧ 1 ≤ k ∧ k ≤ s.length) ∨
      matchInlineStr d s = .error pepPanic := by
  have hmain : (∃ o : InlineOut, firstInline d s inlineTransitions = .ok (some o) ∧ 1 ≤ o.2.1 ∧ o.2.1 ≤ s.length) ∨
      firstInline d s inlineTransitions = .error pepPanic := by
    have good : ∀ (r : Re) (f : Match → Option DocTree → Run InlineOut) (ts) (m : Match), r.captures s = some m →
        (∃ o, f m d = .ok o ∧ Progress m o) →
        (∃ o : InlineOut, firstInline d s ((r, f) :: ts) = .ok (some o) ∧ 1 ≤ o.2.1 ∧ o.2.1 ≤ s.length) ∨
          firstInline d s ((r, f) :: ts) = .error pepPanic := by
      intro r f ts m hm ⟨o, ho, hp⟩
      refine .inl ⟨o, by simp [firstInline, hm, ho, bind, Except.bind, pure, Except.pure], hp.1, ?_⟩
      have := congrArg List.length (Re.captures_append hm)
      simp only [List.length_append] at this
      have := hp.2
      omega
    have skip : ∀ (r : Re) (f : Match → Option DocTree → Run InlineOut) (ts), r.captures s = none →
        firstInline d s ((r, f) :: ts) = firstInline d s ts := by
      intro r f ts h; simp [firstInline, h]
    unfold inlineTransitions
    cases h1 : reInlineWhitespace.captures s with
    | some m => exact good _ _ _ m h1 (whitespace_ok d h1)
    | none =>
    rw [skip _ _ _ h1]
    cases h2 : reStrongEmph.captures s with
    | some m => exact good _ _ _ m h2 (strong_ok d h2)
    | none =>
    rw [skip _ _ _ h2]
    cases h3 : reEmph.captures s with
    | some m => exact good _ _ _ m h3 (emph_ok d h3)
    | none =>
    rw [skip _ _ _ h3]
    cases h4 : reLiteral.captures s with
    | some m => exact good _ _ _ m h4 (literal_ok d h4)
    | none =>
    rw [skip _ _ _ h4]
    cases h5 : reInlineTarget.captures s with
    | some m => exact good _ _ _ m h5 (target_ok d h5)
    | none =>
    rw [skip _ _ _ h5]
    cases h6 : rePhraseRef.captures s with
    | some m => exact good _ _ _ m h6 (phraseRef_ok d h6)
    | none =>
    rw [skip _ _ _ h6]
    cases h7 : reInterpretedText.captures s with
    | some m =>
      rcases interpreted_ok d h7 with h | h
      · exact good _ _ _ m h7 h
      · exact .inr (by simp [firstInline, h7, h, bind, Except.bind])
    | none =>
    rw [skip _ _ _ h7]
    cases h8 : reFootnoteRef.captures s with
    | some m => exact good _ _ _ m h8 (footnoteRef_ok d h8)
    | none =>
    rw [skip _ _ _ h8]
    cases h9 : reCitationRef.captures s with
    | some m => exact good _ _ _ m h9 (citationRef_ok d h9)
    | none =>
    rw [skip _ _ _ h9]
    cases h10 : reSimpleRef.captures s with
    | some m => exact good _ _ _ m h10 (simpleRef_ok d h10)
    | none =>
    rw [skip _ _ _ h10]
    cases h11 : reSubstitutionRef.captures s with
    | some m => exact good _ _ _ m h11 (substitutionRef_ok d h11)
    | none =>
    rw [skip _ _ _ h11]
    cases h12 : reUri.captures s with
    | some m => exact good _ _ _ m h12 (uri_ok d h12)
    | none =>
    rw [skip _ _ _ h12]
    cases h13 : reInlineText.captures s with
    | some m => exact good _ _ _ m h13 (text_ok d h13)
    | none =>
      exfalso
      rw [Re.captures_none_iff] at h1 h13
      cases s with
      | nil => exact hs rfl
      | cons c s =>
        cases hw : isWs c with
        | true =>
          simp only [reInlineWhitespace, Re.plus, Re.run, hw, if_true, List.flatMap_cons,
            List.flatMap_nil, List.append_nil] at h1
          have h14 : (Re.star true (.cls isWs)).run s [] = [] := h1
          rw [run_star_cls] at h14
          simp at h14
        | false =>
          simp only [reInlineText, Re.plus, Re.run, nonWs, hw, Bool.not_false, if_true, List.flatMap_cons,
            List.flatMap_nil, List.append_nil, List.map_eq_nil_iff] at h13
          have h14 : (Re.star true (.cls nonWs)).run s [] = [] := h13
          rw [run_star_cls] at h14
          simp at h14
  unfold matchInlineStr
  rw [if_neg (by cases s with | nil => exact absurd rfl hs | cons => simp)]
  rcases hmain with ⟨⟨nodes, k, d'⟩, h⟩ | h
  · exact .inl ⟨nodes, k, d', h⟩
  · exact .inr h

theorem C32_step_empty (d : Option DocTree) : matchInlineStr d [] = .ok none := rfl

/-! ## C32: termination and consumption -/

theorem LineCursor.incrementBy_add (c : LineCursor) (a b : Nat) : (c.incrementBy a).incrementBy b = c.incrementBy (a + b) := by
  simp [LineCursor.incrementBy, Nat.add_assoc]

theorem countNewlines_split (s : Str) (k : Nat) : countNewlines (s.take k) + countNewlines (s.drop k) = countNewlines s := by
  rw [countNewlines, countNewlines, countNewlines, ← List.count_append, List.take_append_drop]

theorem inlineLoop_spec (fuel : Nat) : ∀ (d : Option DocTree) (c : LineCursor) (s : Str), s.length ≤ fuel →
    inlineLoop fuel d c s = .error pepPanic ∨
    ∃ pieces d', Splits d s pieces d' ∧
      inlineLoop fuel d c s = .ok (pieces.flatMap (·.2), d', c.incrementBy (countNewlines s)) := by
  induction fuel with
  | zero =>
    intro d c s h
    have : s = [] := by cases s with | nil => rfl | cons => simp at h
    subst this
    exact .inr ⟨[], d, .done d, rfl⟩
  | succ fuel ih =>
    intro d c s h
    by_cases hs : s = []
    · subst hs
      exact .inr ⟨[], d, .done d, by simp [inlineLoop, C32_step_empty, bind, Except.bind, pure, Except.pure,
        countNewlines, LineCursor.incrementBy]⟩
    · rcases C32_step d s hs with ⟨nodes, k, d', hm, h1, h2⟩ | hm
      · rcases ih d' (c.incrementBy (countNewlines (s.take k))) (s.drop k) (by simp; omega) with he | ⟨ps, d'', hsp, he⟩
        · exact .inl (by simp [inlineLoop, hm, he, bind, Except.bind])
        · refine .inr ⟨_, d'', .step hm h1 h2 hsp, ?_⟩
          simp only [inlineLoop, hm, bind, Except.bind]
          rw [he]
          simp only [pure, Except.pure, LineCursor.incrementBy_add, countNewlines_split, List.flatMap_cons]
      · exact .inl (by simp [inlineLoop, hm, bind, Except.bind])

/-- **C32** (termination).  Giving the loop more rounds than the text has characters changes nothing, and the loop
never runs out of rounds: `inlineParse` either returns nodes or stops with the PEP panic. -/
theorem C32_terminates (d : Option DocTree) (c : LineCursor) (s : Str) (fuel : Nat) (h : s.length ≤ fuel) :
    inlineLoop fuel d c s = inlineParse d c s ∧
      ((∃ r, inlineParse d c s = .ok r) ∨ inlineParse d c s = .error pepPanic) := by
  have det : ∀ s d p1 d1, Splits d s p1 d1 → ∀ p2 d2, Splits d s p2 d2 → p1 = p2 ∧ d1 = d2 := by
    intro s d p1 d1 h1
    induction h1 with
    | done d =>
      intro p2 d2 h2
      cases h2 with
      | done => exact ⟨rfl, rfl⟩
      | step hm a b _ => simp at b; omega
    | step hm a b _ ih =>
      intro p2 d2 h2
      cases h2 with
      | done => simp at b; omega
      | step hm' a' b' hr' =>
        rw [hm] at hm'; cases hm'
        obtain ⟨e1, e2⟩ := ih _ _ hr'
        exact ⟨by rw [e1], e2⟩
  have noErr : ∀ fuel s d p1 d1 c, Splits d s p1 d1 → s.length ≤ fuel → ∃ r, inlineLoop fuel d c s = .ok r := by
    intro fuel s d p1 d1 c h1
    induction h1 generalizing fuel c with
    | done d =>
      intro _
      cases fuel with
      | zero => exact ⟨_, rfl⟩
      | succ n => exact ⟨_, by simp only [inlineLoop, C32_step_empty, bind, Except.bind]; rfl⟩
    | @step d s nodes k d' rest d'' hm a b _ ih =>
      intro hf
      cases fuel with
      | zero => omega
      | succ n =>
        obtain ⟨r, hr⟩ := ih n (c.incrementBy (countNewlines (s.take k))) (by simp; omega)
        exact ⟨_, by simp only [inlineLoop, hm, bind, Except.bind]; rw [hr]; rfl⟩
  unfold inlineParse
  rcases inlineLoop_spec s.length d c s (Nat.le_refl _) with e | ⟨ps, d', hsp, e⟩
  · refine ⟨?_, .inr e⟩
    rcases inlineLoop_spec fuel d c s h with e' | ⟨ps', d1, hsp', e'⟩
    · rw [e, e']
    · obtain ⟨r, hr⟩ := noErr s.length s d ps' d1 c hsp' (Nat.le_refl _)
      rw [e] at hr; cases hr
  · refine ⟨?_, .inl ⟨_, e⟩⟩
    rcases inlineLoop_spec fuel d c s h with e' | ⟨ps', d1, hsp', e'⟩
    · obtain ⟨r, hr⟩ := noErr fuel s d ps d' c hsp h
      rw [e'] at hr; cases hr
    · obtain ⟨rfl, rfl⟩ := det _ _ _ _ hsp _ _ hsp'
      rw [e, e']

theorem Splits.flatten {d s ps d'} (h : Splits d s ps d') : (ps.map (·.1)).flatten = s ∧ ∀ p ∈ ps, p.1 ≠ [] := by
  induction h with
  | done => simp
  | @step d s nodes k d' rest d'' hm h1 h2 _ ih =>
    refine ⟨by simp [ih.1], ?_⟩
    intro p hp
    simp only [List.mem_cons] at hp
    rcases hp with rfl | hp
    · intro e
      have := congrArg List.length e
      simp only [List.length_take, List.length_nil] at this
      omega
    · exact ih.2 p hp

/-- **C32** (consumption).  The nodes returned are those of consecutive non-empty pieces of the text that make up the
whole text. -/
theorem C32_consumes (d : Option DocTree) (c : LineCursor) (s : Str) (nodes d' c')
    (h : inlineParse d c s = .ok (nodes, d', c')) :
    ∃ pieces, Splits d s pieces d' ∧ (pieces.map (·.1)).flatten = s ∧ (∀ p ∈ pieces, p.1 ≠ []) ∧
      nodes = pieces.flatMap (·.2) := by
  unfold inlineParse at h
  rcases inlineLoop_spec s.length d c s (Nat.le_refl _) with e | ⟨ps, d1, hsp, e⟩
  · rw [e] at h; cases h
  · rw [e] at h; cases h
    exact ⟨ps, hsp, hsp.flatten.1, hsp.flatten.2, rfl⟩

/-- The panic left over in C32 is real: a PEP number of five characters stops the program. -/
theorem C32_pep_panics : inlineParse none ⟨0, 0⟩ (str! ":PEP:`12345`") = .error pepPanic := by
  have h : (inlineParse none ⟨0, 0⟩ (str! ":PEP:`12345`")).map (·.1) = .error pepPanic := by decide +kernel
  cases e : inlineParse none ⟨0, 0⟩ (str! ":PEP:`12345`") with
  | ok r => rw [e] at h; cases h
  | error p => rw [e] at h; simpa [Except.map] using h

example : (inlineParse none ⟨0, 0⟩ (str! "a *b* c")).map (·.1) =
    .ok [.Text (str! "a"), .WhiteSpace (str! " "), .Emphasis (str! "b"), .WhiteSpace (str! " "), .Text (str! "c")] := by
  decide +kernel

/-! ## C34: line count -/

/-- **C34.** After inline parsing the cursor has advanced by the number of line feeds in the text. -/
theorem C34_newlines (d : Option DocTree) (c : LineCursor) (s : Str) (nodes d' c')
    (h : inlineParse d c s = .ok (nodes, d', c')) :
    c'.offset = c.offset + s.count '\n' ∧ c'.baseline = c.baseline := by
  unfold inlineParse at h
  rcases inlineLoop_spec s.length d c s (Nat.le_refl _) with e | ⟨ps, d1, hsp, e⟩
  · rw [e] at h; cases h
  · rw [e] at h; cases h
    exact ⟨rfl, rfl⟩

/-- A paragraph of `n` lines joined by line feeds advances the cursor by `n - 1` lines: the transition that reads the
paragraph adds the last one. -/
theorem C34_paragraph (d : Option DocTree) (c : LineCursor) (ls : List Str) (hl : ls ≠ []) (hn : ∀ l ∈ ls, '\n' ∉ l)
    (nodes d' c') (h : inlineParse d c (joinWith ['\n'] ls) = .ok (nodes, d', c')) :
    c'.offset + 1 = c.offset + ls.length := by
  have hc : ∀ ls : List Str, ls ≠ [] → (∀ l ∈ ls, '\n' ∉ l) → (joinWith ['\n'] ls).count '\n' + 1 = ls.length := by
    intro ls
    induction ls with
    | nil => intro h; exact absurd rfl h
    | cons x xs ih =>
      intro _ hn
      cases xs with
      | nil => simp [joinWith, List.count_eq_zero.mpr (hn x (by simp))]
      | cons y ys =>
        have := ih (by simp) (fun l hl => hn l (by simp [hl]))
        simp only [joinWith, List.count_append, List.count_eq_zero.mpr (hn x (by simp)), List.length_cons] at this ⊢
        simp only [List.count_cons_self, List.count_nil]
        omega
  have h1 := (C34_newlines d c _ nodes d' c' h).1
  have h2 := hc ls hl hn
  omega

example : ((inlineParse none ⟨3, 7⟩ (str! "a **b\nc** d\ne")).map (·.2.2)) = .ok ⟨5, 7⟩ := by decide +kernel

/-! ## C33: plain text -/

theorem mem_markup {c a : Char} (h : c ∉ markupChars) (ha : a ∈ markupChars) : ¬ c = a := fun e => h (e ▸ ha)

theorem dead_lit {P : Char → Prop} {a : Char} (h : ¬ P a) (rest : Str) : Dead P (Re.lit (a :: rest)) := by
  cases rest with
  | nil => exact .chr h
  | cons b rest => exact .left (.chr h)

/-- Characters that are not markup. -/
def PlainChar (c : Char) : Prop := c ∉ markupChars

theorem dead_strong : Dead PlainChar reStrongEmph := .right (.left (.cap (dead_lit (by simp [PlainChar, markupChars]) _)))
theorem dead_emph : Dead PlainChar reEmph := .right (.left (.cap (.chr (by simp [PlainChar, markupChars]))))
theorem dead_literal : Dead PlainChar reLiteral := .right (.left (.cap (dead_lit (by simp [PlainChar, markupChars]) _)))
theorem dead_target : Dead PlainChar reInlineTarget := .right (.left (.cap (dead_lit (by simp [PlainChar, markupChars]) _)))
theorem dead_phrase : Dead PlainChar rePhraseRef := .right (.left (.cap (.chr (by simp [PlainChar, markupChars]))))
theorem dead_interpreted : Dead PlainChar reInterpretedText :=
  .right (.right (.left (.cap (.chr (by simp [PlainChar, markupChars])))))
theorem dead_footnote : Dead PlainChar reFootnoteRef := .right (.left (.cap (.chr (by simp [PlainChar, markupChars]))))
theorem dead_citation : Dead PlainChar reCitationRef := .right (.left (.cap (.chr (by simp [PlainChar, markupChars]))))
theorem dead_simple : Dead PlainChar reSimpleRef :=
  .right (.right (.left (.cap (.left (.chr (by simp [PlainChar, markupChars]))))))
theorem dead_subst : Dead PlainChar reSubstitutionRef := .right (.left (.cap (.chr (by simp [PlainChar, markupChars]))))
theorem dead_uri : Dead PlainChar reUri :=
  .right (.left (.cap (.alt (.cap (.left (.right (.chr (by simp [PlainChar, markupChars])))))
    (.cap (.right (.right (.left (.chr (by simp [PlainChar, markupChars])))))))))

theorem ws_captures {c : Char} {s : Str} (h : isWs c = true) :
    ∃ m, reInlineWhitespace.captures (c :: s) = some m ∧ m.whole = (c :: s).takeWhile isWs := by
  have e : reInlineWhitespace.run (c :: s) [] =
      ((List.range ((s.takeWhile isWs).length + 1)).reverse.map fun k => (s.drop k, ([] : Caps))) := by
    rw [← run_star_cls isWs s []]
    simp [reInlineWhitespace, Re.plus, Re.run, h]
  unfold Re.captures
  rw [e]
  simp only [List.range_succ, List.reverse_append, List.reverse_singleton, List.map_cons, List.singleton_append]
  refine ⟨_, rfl, ?_⟩
  have hl := congrArg List.length (List.takeWhile_append_dropWhile (p := isWs) (l := s))
  simp only [List.length_append] at hl
  simp only [List.length_drop, List.length_cons, List.takeWhile_cons, h, if_true]
  have : s.length + 1 - (s.length - (s.takeWhile isWs).length) = (s.takeWhile isWs).length + 1 := by omega
  rw [this, List.take_succ_cons]
  congr 1
  exact (List.prefix_iff_eq_take.mp (List.takeWhile_prefix isWs)).symm

theorem no_ws_captures {c : Char} {s : Str} (h : isWs c = false) : reInlineWhitespace.captures (c :: s) = none := by
  rw [Re.captures_none_iff]
  simp [reInlineWhitespace, Re.plus, Re.run, h]

theorem text_captures {c : Char} {s : Str} (h : isWs c = false) :
    ∃ m, reInlineText.captures (c :: s) = some m ∧ m.whole = (c :: s).takeWhile nonWs := by
  have hn : nonWs c = true := by simp [nonWs, h]
  have e : (Re.plus true (.cls nonWs)).run (c :: s) [] =
      ((List.range ((s.takeWhile nonWs).length + 1)).reverse.map fun k => (s.drop k, ([] : Caps))) := by
    rw [← run_star_cls nonWs s []]
    simp [Re.plus, Re.run, hn]
  unfold Re.captures reInlineText
  rw [Re.run, e]
  simp only [List.range_succ, List.reverse_append, List.reverse_singleton, List.map_cons, List.singleton_append]
  refine ⟨_, rfl, ?_⟩
  have hl := congrArg List.length (List.takeWhile_append_dropWhile (p := nonWs) (l := s))
  simp only [List.length_append] at hl
  simp only [List.length_drop, List.length_cons, List.takeWhile_cons, hn, if_true]
  have : s.length + 1 - (s.length - (s.takeWhile nonWs).length) = (s.takeWhile nonWs).length + 1 := by omega
  rw [this, List.take_succ_cons]
  congr 1
  exact (List.prefix_iff_eq_take.mp (List.takeWhile_prefix nonWs)).symm

/-- One step on a markup-free text takes the first run. -/
theorem plain_step (d : Option DocTree) (c : Char) (s : Str) (h : markupFree (c :: s)) :
    matchInlineStr d (c :: s) =
      .ok (some ([runNode ((c :: s).takeWhile fun x => isWs x == isWs c)],
        ((c :: s).takeWhile fun x => isWs x == isWs c).length, d)) := by
  have hp : ∀ x ∈ c :: s, PlainChar x := h
  cases hw : isWs c with
  | true =>
    obtain ⟨m, hm, hwm⟩ := ws_captures (s := s) hw
    have e : (fun x => isWs x == true) = isWs := by funext x; cases isWs x <;> rfl
    have hall : ((c :: s).takeWhile isWs).all isWs = true := List.all_eq_true.mpr fun x hx => mem_takeWhile _ _ _ hx
    simp only [matchInlineStr, inlineTransitions, firstInline, hm, inlineWhitespace, bind, Except.bind, pure, Except.pure,
      List.isEmpty_cons, Bool.false_eq_true, if_false, e, hwm]
    rw [runNode, if_pos hall]
  | false =>
    obtain ⟨m, hm, hwm⟩ := text_captures (s := s) hw
    have e : (fun x => isWs x == false) = nonWs := by funext x; simp [nonWs]
    have hall : ¬ ((c :: s).takeWhile nonWs).all isWs = true := by simp [nonWs, hw]
    simp only [matchInlineStr, inlineTransitions, firstInline, no_ws_captures hw, dead_strong.captures hp,
      dead_emph.captures hp, dead_literal.captures hp, dead_target.captures hp, dead_phrase.captures hp,
      dead_interpreted.captures hp, dead_footnote.captures hp, dead_citation.captures hp, dead_simple.captures hp,
      dead_subst.captures hp, dead_uri.captures hp, hm, inlineText, bind, Except.bind, pure, Except.pure,
      List.isEmpty_cons, Bool.false_eq_true, if_false, e, hwm]
    rw [runNode, if_neg hall]

theorem drop_takeWhile_length {α} (p : α → Bool) (l : List α) : l.drop (l.takeWhile p).length = l.dropWhile p := by
  induction l with
  | nil => rfl
  | cons a l ih => cases h : p a <;> simp [h, ih]

theorem runs_cons (c : Char) (s : Str) :
    runs (c :: s) = ((c :: s).takeWhile fun x => isWs x == isWs c) ::
      runs ((c :: s).drop ((c :: s).takeWhile fun x => isWs x == isWs c).length) := by
  have hd : (c :: s).drop ((c :: s).takeWhile fun x => isWs x == isWs c).length =
      (c :: s).dropWhile fun x => isWs x == isWs c := drop_takeWhile_length _ _
  rw [hd]
  have h1 := List.takeWhile_append_dropWhile (p := fun x => isWs x == isWs c) (l := c :: s)
  conv => lhs; rw [← h1]
  have hmem : ∀ x ∈ (c :: s).takeWhile (fun x => isWs x == isWs c), isWs x = isWs c := by
    intro x hx
    have := mem_takeWhile _ _ _ hx
    simpa using this
  unfold runs
  rw [List.splitBy_append, List.splitBy_of_isChain]
  · rfl
  · simp
  · have : ∀ l : Str, (∀ x ∈ l, isWs x = isWs c) → l.IsChain fun x y => (isWs x == isWs y) = true := by
      intro l
      induction l with
      | nil => intro _; exact List.isChain_nil
      | cons a l ih =>
        intro h
        refine List.isChain_cons.mpr ⟨?_, ih fun x hx => h x (by simp [hx])⟩
        intro y hy
        have := h y (List.mem_cons_of_mem _ (List.mem_of_mem_head? hy))
        simp [h a (by simp), this]
    exact this _ hmem
  · intro x hx y hy
    have hx' := hmem x (List.mem_of_getLast? hx)
    have hy' : (isWs y == isWs c) = false := by
      have := List.head?_dropWhile_not (p := fun x => isWs x == isWs c) (l := c :: s)
      rw [Option.mem_def.mp hy] at this
      simpa using this
    show (isWs x == isWs y) = false
    rw [hx']
    cases h1 : isWs y <;> cases h2 : isWs c <;> simp_all

/-- **C33.** A markup-free text is split into its runs of white space and of other characters; each run becomes one
white-space or text node, in order, and the document is left alone. -/
theorem C33_plain (d : Option DocTree) (c : LineCursor) (s : Str) (h : markupFree s) :
    inlineParse d c s = .ok ((runs s).map runNode, d, c.incrementBy (s.count '\n')) := by
  have key : ∀ n s ps d', s.length ≤ n → markupFree s → Splits d s ps d' →
      ps.flatMap (·.2) = (runs s).map runNode ∧ d' = d := by
    intro n
    induction n with
    | zero =>
      intro s ps d' hn h hsp
      have : s = [] := by cases s with | nil => rfl | cons => simp at hn
      subst this
      cases hsp with
      | done => exact ⟨rfl, rfl⟩
      | step hm a b _ => simp at b; omega
    | succ n ih =>
      intro s ps d' hn h hsp
      cases s with
      | nil =>
        cases hsp with
        | done => exact ⟨rfl, rfl⟩
        | step hm a b _ => simp at b; omega
      | cons a s =>
        cases hsp with
        | step hm h1 h2 hr =>
          rw [plain_step d a s h] at hm
          simp only [Except.ok.injEq, Option.some.injEq, Prod.mk.injEq] at hm
          obtain ⟨rfl, rfl, rfl⟩ := hm
          have hdrop : markupFree ((a :: s).drop ((a :: s).takeWhile fun x => isWs x == isWs a).length) :=
            fun x hx => h x (List.mem_of_mem_drop hx)
          obtain ⟨e1, e2⟩ := ih _ _ _ (by simp only [List.length_drop]; omega) hdrop hr
          refine ⟨?_, e2⟩
          rw [runs_cons, List.map_cons, List.flatMap_cons, e1]
          rfl
  have noPanic : ∀ n s, s.length ≤ n → markupFree s → ∃ ps d', Splits d s ps d' := by
    intro n
    induction n with
    | zero =>
      intro s hn h
      have : s = [] := by cases s with | nil => rfl | cons => simp at hn
      subst this
      exact ⟨[], d, .done d⟩
    | succ n ih =>
      intro s hn h
      cases s with
      | nil => exact ⟨[], d, .done d⟩
      | cons a s =>
        have hlen : 1 ≤ ((a :: s).takeWhile fun x => isWs x == isWs a).length := by simp
        have hdrop : markupFree ((a :: s).drop ((a :: s).takeWhile fun x => isWs x == isWs a).length) :=
          fun x hx => h x (List.mem_of_mem_drop hx)
        obtain ⟨ps, d', hr⟩ := ih _ (by simp only [List.length_drop]; omega) hdrop
        exact ⟨_, _, .step (plain_step d a s h) hlen (List.takeWhile_prefix _).length_le hr⟩
  unfold inlineParse
  rcases inlineLoop_spec s.length d c s (Nat.le_refl _) with e | ⟨ps, d', hsp, e⟩
  · exfalso
    obtain ⟨ps, d', hsp⟩ := noPanic s.length s (Nat.le_refl _) h
    -- a text that can be split completely does not panic
    have : ∀ n (s : Str) d ps d' c, Splits d s ps d' → s.length ≤ n → inlineLoop n d c s ≠ .error pepPanic := by
      intro n s d ps d' c hsp
      induction hsp generalizing n c with
      | done d =>
        intro _
        cases n with
        | zero => simp [inlineLoop]
        | succ n => simp [inlineLoop, C32_step_empty, bind, Except.bind, pure, Except.pure]
      | @step d s nodes k d' rest d'' hm a b _ ih =>
        intro hf
        cases n with
        | zero => omega
        | succ n =>
          have := ih n (c.incrementBy (countNewlines (s.take k))) (by simp; omega)
          intro he
          simp only [inlineLoop, hm, bind, Except.bind] at he
          split at he
          · rename_i e' he'
            cases he
            exact this he'
          · cases he
    exact this _ _ _ _ _ c hsp (Nat.le_refl _) e
  · obtain ⟨e1, e2⟩ := key s.length s ps d' (Nat.le_refl _) h hsp
    rw [e, e1, e2]
    rfl

/-- The runs of a text make up the text, none is empty. -/
theorem C33_runs (s : Str) : (runs s).flatten = s ∧ ∀ r ∈ runs s, r ≠ [] :=
  ⟨List.flatten_splitBy _ _, fun _ h => List.ne_nil_of_mem_splitBy h⟩

/-- White-space and text runs alternate, and each run is of one kind. -/
theorem C33_alternate (s : Str) :
    (runs s).IsChain (fun a b => a.all isWs ≠ b.all isWs) ∧
      ∀ r ∈ runs s, (∀ x ∈ r, isWs x = true) ∨ ∀ x ∈ r, isWs x = false := by
  have hall : ∀ r ∈ runs s, ∀ x ∈ r, ∀ y ∈ r, isWs x = isWs y := by
    intro r hr
    have hc := List.isChain_of_mem_splitBy hr
    have : ∀ l : Str, l.IsChain (fun x y => (isWs x == isWs y) = true) → ∀ x ∈ l, ∀ y ∈ l, isWs x = isWs y := by
      intro l
      induction l with
      | nil => intro _ x hx; cases hx
      | cons a l ih =>
        intro hc x hx y hy
        have hl := ih hc.tail
        have ha : ∀ z ∈ l, isWs a = isWs z := by
          intro z hz
          cases l with
          | nil => cases hz
          | cons b l =>
            have hab : isWs a = isWs b := by
              have := (List.isChain_cons.mp hc).1 b rfl
              simpa using this
            rw [hab]; exact hl b (by simp) z hz
        simp only [List.mem_cons] at hx hy
        rcases hx with rfl | hx <;> rcases hy with rfl | hy
        · rfl
        · exact ha y hy
        · exact (ha x hx).symm
        · exact hl x hx y hy
    exact this r hc
  constructor
  · have hc := List.isChain_getLast_head_splitBy (fun a b => isWs a == isWs b) s
    have hne := fun r (h : r ∈ runs s) => List.ne_nil_of_mem_splitBy h
    have : ∀ l : List Str, (∀ r ∈ l, ∀ x ∈ r, ∀ y ∈ r, isWs x = isWs y) →
        l.IsChain (fun a b => ∃ ha hb, (isWs (a.getLast ha) == isWs (b.head hb)) = false) →
        l.IsChain (fun a b => a.all isWs ≠ b.all isWs) := by
      intro l
      induction l with
      | nil => intro _ _; exact List.isChain_nil
      | cons a l ih =>
        intro hall hc
        refine List.isChain_cons.mpr ⟨?_, ih (fun r hr => hall r (by simp [hr])) hc.tail⟩
        intro b hb
        obtain ⟨ha', hb', e⟩ := (List.isChain_cons.mp hc).1 b hb
        have e1 : a.all isWs = isWs (a.getLast ha') := by
          cases hw : isWs (a.getLast ha') with
          | true => exact List.all_eq_true.mpr fun x hx => (hall a (by simp) x hx _ (List.getLast_mem ha')).trans hw
          | false => exact List.all_eq_false.mpr ⟨_, List.getLast_mem ha', by simp [hw]⟩
        have e2 : b.all isWs = isWs (b.head hb') := by
          cases hw : isWs (b.head hb') with
          | true => exact List.all_eq_true.mpr fun x hx =>
              (hall b (by simp [List.mem_of_mem_head? hb]) x hx _ (List.head_mem hb')).trans hw
          | false => exact List.all_eq_false.mpr ⟨_, List.head_mem hb', by simp [hw]⟩
        rw [e1, e2]
        simpa using e
    exact this _ hall hc
  · intro r hr
    have hne : r ≠ [] := List.ne_nil_of_mem_splitBy hr
    cases hw : isWs (r.head hne) with
    | true => exact .inl fun x hx => (hall r hr x hx _ (List.head_mem hne)).trans hw
    | false => exact .inr fun x hx => (hall r hr x hx _ (List.head_mem hne)).trans hw

theorem ws_not_special {c : Char} (h : isWs c = true) : textEscape? c = none := by
  apply textEscape?_none
  intro hm
  have : ∀ c ∈ TeX.specials, isWs c = false := by decide
  rw [this c hm] at h; cases h

theorem spaceFor_ws {c : Char} (h : isWs c = true) (s : Str) : spaceFor (c :: s) = [] := by simp [spaceFor, h]

/-- Escaping run by run is escaping the whole, when no backslash occurs. -/
theorem escape_append (a b : Str) (hb : '\\' ∉ a) (hs : ∀ x y, a.getLast? = some x → b.head? = some y →
    isWs x = true ∨ isWs y = true) : escapeText (a ++ b) = escapeText a ++ escapeText b := by
  have cons : ∀ (c : Char) (s : Str), c ≠ '\\' → escapeText (c :: s) = emitText c s ++ escapeText s := by
    intro c s hc
    cases s with
    | nil => simp [escapeText]
    | cons d s => simp [escapeText, hc]
  induction a with
  | nil => simp [escapeText]
  | cons c a ih =>
    have hc : c ≠ '\\' := fun e => hb (by simp [e])
    rw [List.cons_append, cons c _ hc, cons c _ hc]
    cases a with
    | nil =>
      simp only [List.nil_append, escapeText, List.append_nil]
      congr 1
      cases b with
      | nil => rfl
      | cons y b =>
        rcases hs c y rfl rfl with h | h
        · simp [emitText, ws_not_special h]
        · simp only [emitText, spaceFor_ws h]
          cases textEscape? c <;> simp [spaceFor]
    | cons c2 a =>
      rw [ih (fun hm => hb (by simp [hm])) (fun x y hx hy => hs x y (by simpa using hx) hy), List.append_assoc]
      rfl

/-- **C33**, on the level of texts: the texts of the nodes make up the LaTeX rendering of the text. -/
theorem C33_text (d : Option DocTree) (c : LineCursor) (s : Str) (h : markupFree s) (hb : '\\' ∉ s) :
    ∃ nodes, inlineParse d c s = .ok (nodes, d, c.incrementBy (s.count '\n')) ∧
      (nodes.map nodeText).flatten = escapeText s := by
  refine ⟨_, C33_plain d c s h, ?_⟩
  have hesc : ∀ r : Str, (∀ x ∈ r, isWs x = true) → escapeText r = r := by
    intro r
    induction r with
    | nil => intro _; rfl
    | cons a r ih =>
      intro hr
      have ha := hr a (by simp)
      have hne : a ≠ '\\' := fun e => by subst e; exact absurd ha (by decide)
      have := ih fun x hx => hr x (by simp [hx])
      cases r with
      | nil => simp [escapeText, emitText, ws_not_special ha]
      | cons b r => simp only [escapeText, hne, if_false, emitText, ws_not_special ha]; rw [this]; rfl
  have htext : ∀ r, nodeText (runNode r) = escapeText r := by
    intro r
    unfold runNode
    split
    · rename_i hw
      exact (hesc r (List.all_eq_true.mp hw)).symm
    · rfl
  obtain ⟨halt, hkind⟩ := C33_alternate s
  obtain ⟨hfl, hne⟩ := C33_runs s
  have key : ∀ l : List Str, l.IsChain (fun a b => a.all isWs ≠ b.all isWs) →
      (∀ r ∈ l, (∀ x ∈ r, isWs x = true) ∨ ∀ x ∈ r, isWs x = false) → (∀ r ∈ l, r ≠ []) → (∀ r ∈ l, '\\' ∉ r) →
      ((l.map runNode).map nodeText).flatten = escapeText l.flatten := by
    intro l
    induction l with
    | nil => intro _ _ _ _; rfl
    | cons r l ih =>
      intro hc hk hn hbs
      have := ih hc.tail (fun x hx => hk x (by simp [hx])) (fun x hx => hn x (by simp [hx])) (fun x hx => hbs x (by simp [hx]))
      simp only [List.map_cons, List.flatten_cons] at this ⊢
      rw [this, htext]
      refine (escape_append r l.flatten (hbs r (by simp)) ?_).symm
      intro x y hx hy
      cases l with
      | nil => simp at hy
      | cons r2 l =>
        have hne2 := hn r2 (by simp)
        have hy2 : y ∈ r2 := by
          cases r2 with
          | nil => exact absurd rfl hne2
          | cons z r2 => simp at hy; subst hy; simp
        have hx2 : x ∈ r := List.mem_of_getLast? hx
        have hd := (List.isChain_cons.mp hc).1 r2 rfl
        rcases hk r (by simp) with h1 | h1
        · exact .inl (h1 x hx2)
        · rcases hk r2 (by simp) with h2 | h2
          · exact .inr (h2 y hy2)
          · exfalso
            apply hd
            have e1 : r.all isWs = false := List.all_eq_false.mpr ⟨x, hx2, by simp [h1 x hx2]⟩
            have e2 : r2.all isWs = false := List.all_eq_false.mpr ⟨y, hy2, by simp [h2 y hy2]⟩
            rw [e1, e2]
  rw [key _ halt hkind hne, hfl]
  intro r hr hbr
  exact hb (by rw [← hfl]; exact List.mem_flatten.mpr ⟨r, hr, hbr⟩)

/-- Without characters special to LaTeX the texts of the nodes make up the text itself. -/
theorem C33_text_verbatim (d : Option DocTree) (c : LineCursor) (s : Str) (h : markupFree s)
    (hp : ∀ x ∈ s, x ∉ TeX.specials) :
    ∃ nodes, inlineParse d c s = .ok (nodes, d, c.incrementBy (s.count '\n')) ∧
      (nodes.map nodeText).flatten = s := by
  have hb : '\\' ∉ s := fun hm => hp _ hm (by decide)
  obtain ⟨nodes, h1, h2⟩ := C33_text d c s h hb
  refine ⟨nodes, h1, h2.trans ?_⟩
  clear h1 h2 h
  induction s with
  | nil => rfl
  | cons a s ih =>
    have ha : textEscape? a = none := textEscape?_none (hp a (by simp))
    have hne : a ≠ '\\' := fun e => hb (by simp [e])
    have := ih (fun x hx => hp x (by simp [hx])) (fun hm => hb (by simp [hm]))
    cases s with
    | nil => simp [escapeText, emitText, ha]
    | cons b r => simp only [escapeText, hne, if_false, emitText, ha]; rw [this]; rfl

example : markupFree (str! "Hello, world!  50% of\nwhat?") ∧
    (inlineParse none ⟨0, 0⟩ (str! "Hello, 5%\nx")).map (·.1) =
      .ok [.Text (str! "Hello,"), .WhiteSpace (str! " "), .Text (str! "5\\%"), .WhiteSpace (str! "\n"), .Text (str! "x")] := by
  decide +kernel

/-! ## C35: quotation -/

/-- The pairs of ASCII quotation characters of the reStructuredText specification. -/
def asciiQuotes : List (Char × Char) :=
  [('"', '"'), ('\'', '\''), ('(', ')'), ('<', '>'), ('[', ']'), ('{', '}')]

/-- **C35.** A start string is quoted iff the character before it and the character after it are an opener and the
closer at the same place of the table, or the same delimiter. -/
theorem C35_iff (a b : Str) : quotationMatches a b = true ↔
    ∃ o c, a.getLast? = some o ∧ b.head? = some c ∧
      ((o.toNat, c.toNat) ∈ openers.zip closers ∨ (o = c ∧ o.toNat ∈ delimiters)) := by
  have hl : ∀ n, endsWithCp a n = true ↔ ∃ o, a.getLast? = some o ∧ o.toNat = n := by
    intro n; unfold endsWithCp; cases a.getLast? <;> simp
  have hh : ∀ n, startsWithCp b n = true ↔ ∃ c, b.head? = some c ∧ c.toNat = n := by
    intro n; unfold startsWithCp; cases b.head? <;> simp
  simp only [quotationMatches, Bool.or_eq_true, List.any_eq_true, Bool.and_eq_true, hl, hh]
  constructor
  · rintro (⟨⟨x, y⟩, hm, ⟨o, ho, e1⟩, ⟨c, hc, e2⟩⟩ | ⟨x, hm, ⟨o, ho, e1⟩, ⟨c, hc, e2⟩⟩)
    · exact ⟨o, c, ho, hc, .inl (by simp only at e1 e2; rw [e1, e2]; exact hm)⟩
    · exact ⟨o, c, ho, hc, .inr ⟨Char.toNat_inj.mp (e1.trans e2.symm), by rw [e1]; exact hm⟩⟩
  · rintro ⟨o, c, ho, hc, h | ⟨rfl, h⟩⟩
    · exact .inl ⟨_, h, ⟨o, ho, rfl⟩, ⟨c, hc, rfl⟩⟩
    · exact .inr ⟨_, h, ⟨o, ho, rfl⟩, ⟨o, hc, rfl⟩⟩

/-- The table of openers and the table of closers have the same length: no opener is lost. -/
theorem C35_every_opener : openers.length = closers.length ∧
    ∀ o ∈ openers, ∃ c ∈ closers, (o, c) ∈ openers.zip closers := by
  have hl : openers.length = closers.length := by decide +kernel
  refine ⟨hl, fun o ho => ?_⟩
  obtain ⟨i, hi, rfl⟩ := List.getElem_of_mem ho
  refine ⟨closers[i]'(hl ▸ hi), List.getElem_mem _, ?_⟩
  rw [← List.getElem_zip (h := by simp [← hl, hi])]
  exact List.getElem_mem _

/-- Every opener is recognised together with a closer. -/
theorem C35_opener (o : Char) (ho : o.toNat ∈ openers) (pre : Str) :
    ∃ n ∈ closers, ∀ c : Char, c.toNat = n → ∀ post, quotationMatches (pre ++ [o]) (c :: post) = true := by
  obtain ⟨n, hn, hz⟩ := C35_every_opener.2 _ ho
  refine ⟨n, hn, fun c hc post => (C35_iff _ _).mpr ⟨o, c, by simp, rfl, .inl (by rw [hc]; exact hz)⟩⟩

/-- The ASCII pairs of the specification are recognised. -/
theorem C35_ascii (o c : Char) (h : (o, c) ∈ asciiQuotes) (pre post : Str) :
    quotationMatches (pre ++ [o]) (c :: post) = true := by
  rw [C35_iff]
  refine ⟨o, c, by simp, rfl, .inl ?_⟩
  have : ∀ p ∈ asciiQuotes, (p.1.toNat, p.2.toNat) ∈ openers.zip closers := by decide +kernel
  exact this _ h

/-- Nothing is quoted without a character before the start string. -/
theorem C35_needs_lookbehind (b : Str) : quotationMatches [] b = false := by
  cases h : quotationMatches [] b with
  | false => rfl
  | true => have := quotation_nonempty h; simp at this

/-- A quoted start string of strong emphasis, emphasis or a literal becomes text: no markup node is made. -/
theorem C35_text (k : Paired) (m : Match) (d : Option DocTree) (nodes n d')
    (hq : ∀ t, m.get .content = some t → quotationMatches (m.getD .lookbehind) t = true)
    (h : pairedDelimiter k m d = .ok (nodes, n, d')) : nodes = [.Text (escapeText (m.whole.take n))] ∧ d' = d := by
  unfold pairedDelimiter Match.need at h
  cases h1 : m.get .markupStart <;> cases h2 : m.get .content <;> cases h3 : m.get .markupEnd <;>
    simp only [h1, h2, h3, bind, Except.bind, reduceCtorEq, pure, Except.pure] at h
  rw [if_pos (hq _ h2)] at h
  cases h
  exact ⟨rfl, rfl⟩

/-- The text made of a quoted start string reaches to the end of the would-be markup: the emphasis that follows the
quoted asterisk is swallowed. -/
theorem C35_swallows_markup : (inlineParse none ⟨0, 0⟩ (str! "(*) *a*")).map (·.1) =
    .ok [.Text (str! "(*) *a*")] := by decide +kernel

/-- Same-character quotation is lost for the characters in the middle of the ranges of the specification: the table has
the two ends and a literal hyphen instead.  U+2010 quotes itself, U+2012 (in the same range) does not. -/
theorem C35_lost_ranges :
    quotationMatches [Char.ofNat 0x2010] [Char.ofNat 0x2010] = true ∧
    quotationMatches [Char.ofNat 0x2012] [Char.ofNat 0x2012] = false := by decide +kernel

end Rustla
