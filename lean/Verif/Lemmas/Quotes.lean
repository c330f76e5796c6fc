import Verif.Lemmas.Layout
import Verif.Lemmas.Literals
import Verif.Lemmas.Back
/-! # Block quotes -/
namespace Rustla
open Spec

theorem Spec.Signature.Ok.dashed {s : Signature} (h : s.Ok) : Dashed s.first := by
  rcases h.dash with e | e
  · exact .inl ⟨_, by rw [Signature.first, e]⟩
  · exact .inr ⟨_, by rw [Signature.first, e]⟩

/-- An attribution is found to be one. -/
theorem signature_captures {s : Signature} (h : s.Ok) (q : Nat) :
    reAttribution.captures (indentLine q s.first) =
      some ⟨spaces q ++ (s.dash ++ List.replicate s.space ' '), s.text, [(.g1, spaces q)]⟩ := by
  obtain ⟨c, hc, hw⟩ := h.start
  have hsp : First (.star true (.chr ' ')) (List.replicate s.space ' ' ++ s.text) [(.g1, spaces q)] (s.text, [(.g1, spaces q)]) :=
    .chrStar (fun x hx => List.eq_of_mem_replicate hx) (by rw [hc]; intro e; cases e; exact absurd hw (by decide)) _
  have hd : ∃ d, s.first.head? = some d ∧ isWs d = false := by
    rcases h.dash with e | e
    · exact ⟨'-', by rw [Signature.first, e]; rfl, by decide⟩
    · exact ⟨'—', by rw [Signature.first, e]; rfl, by decide⟩
  obtain ⟨d, hd1, hd2⟩ := hd
  have h1 : First (.cap .g1 (.star true (.cls isWs))) (indentLine q s.first) [] (s.first, [(.g1, spaces q)]) := .indent hd1 hd2 []
  have h2 : First (.alt (Re.lit (str! "--")) (.alt (Re.lit (str! "---")) (.chr '—'))) s.first [(.g1, spaces q)]
      (List.replicate s.space ' ' ++ s.text, [(.g1, spaces q)]) := by
    rcases h.dash with e | e
    · rw [Signature.first, e]; exact .left .lit
    · rw [Signature.first, e]
      refine .right ?_ (.right ?_ (.chr '—' _ _))
      · exact run_seq_dead (chr_dead (by simp) _)
      · exact run_seq_dead (chr_dead (by simp) _)
  have h3 := First.seq h1 (First.seq h2 hsp)
  have := First.captures (r := reAttribution) (w := spaces q ++ (s.dash ++ List.replicate s.space ' ')) (s := s.text)
    (cs := [(.g1, spaces q)]) (by
      have e : spaces q ++ (s.dash ++ List.replicate s.space ' ') ++ s.text = indentLine q s.first := by
        simp [indentLine, Signature.first, spaces]
      rw [e]; exact h3)
  rw [← this]
  simp [indentLine, Signature.first, spaces]

theorem Spec.Signature.Ok.head {s : Signature} (h : s.Ok) :
    ∃ d t, s.first = d :: t ∧ (d = '-' ∧ t.head? = some '-' ∨ d = '—') := by
  rcases h.dash with e | e
  · exact ⟨'-', _, by rw [Signature.first, e]; rfl, .inl ⟨rfl, rfl⟩⟩
  · exact ⟨'—', _, by rw [Signature.first, e]; rfl, .inr rfl⟩

/-- Elsewhere an attribution looks like the first line of a paragraph. -/
theorem Spec.Signature.Ok.firstLine {s : Signature} (h : s.Ok) : FirstLine s.first := by
  obtain ⟨d, t, e, hd⟩ := h.head
  have hd' : d = '-' ∨ d = '—' := hd.imp (·.1) id
  refine ⟨⟨⟨d, by rw [e]; rfl, by rcases hd' with rfl | rfl <;> decide⟩, ?_, ?_⟩, ?_, ?_, ?_, ?_⟩
  · rintro ⟨a, n, m, ha, hl⟩
    obtain ⟨c, hc, hw⟩ := h.start
    obtain ⟨u, hu⟩ : ∃ u, s.text = c :: u := by
      cases ht : s.text with
      | nil => rw [ht] at hc; cases hc
      | cons x u => rw [ht] at hc; exact ⟨u, by simpa using hc⟩
    have ha' : a = d := by
      rw [e, List.replicate_succ] at hl
      simp only [List.cons_append, List.cons.injEq] at hl
      exact hl.1.symm
    subst ha'
    have hmem : c = a ∨ c = ' ' := by
      have : c ∈ s.first := by rw [Signature.first, hu]; simp
      rw [hl] at this
      rcases List.mem_append.mp this with h | h
      · exact .inl (List.eq_of_mem_replicate h)
      · exact .inr (List.eq_of_mem_replicate h)
    rcases hd' with rfl | rfl
    swap
    · exact absurd ha (by decide)
    rcases hmem with rfl | rfl
    swap
    · exact absurd hw (by decide)
    have hdash : s.dash = str! "--" := by
      rcases h.dash with e' | e'
      · exact e'
      · rw [Signature.first, e'] at e
        have : '—' = '-' := by simpa using congrArg List.head? e
        exact absurd this (by decide)
    by_cases hs : s.space = 0
    · exact h.two hdash hs (by rw [hu]; rfl)
    · -- a space in front of a hyphen
      obtain ⟨k, hk⟩ : ∃ k, s.space = k + 1 := ⟨s.space - 1, by omega⟩
      rw [Signature.first, hdash, hk, hu] at hl
      have key : ∀ (n m : Nat) (x y : Str), ' ' :: (x ++ '-' :: y) ≠ List.replicate n '-' ++ List.replicate m ' ' := by
        intro n m x y he
        cases n with
        | succ n => simp [List.replicate_succ] at he
        | zero =>
          have : '-' ∈ List.replicate m ' ' := by
            rw [List.replicate_zero, List.nil_append] at he
            rw [← he]; simp
          exact absurd (List.eq_of_mem_replicate this) (by decide)
      have hl : '-' :: '-' :: ' ' :: (List.replicate k ' ' ++ '-' :: u) = List.replicate (n + 1) '-' ++ List.replicate m ' ' := by
        rw [← hl]; simp [List.replicate_succ]
      cases n with
      | zero =>
        have hl : '-' :: ' ' :: (List.replicate k ' ' ++ '-' :: u) = List.replicate m ' ' := by simpa [List.replicate_succ] using hl
        have : '-' ∈ List.replicate m ' ' := by rw [← hl]; simp
        exact absurd (List.eq_of_mem_replicate this) (by decide)
      | succ n =>
        refine key n m (List.replicate k ' ') u ?_
        simpa [List.replicate_succ] using hl
  · intro hn
    rw [Signature.first] at hn
    simp only [List.mem_append] at hn
    rcases hn with hn | hn | hn
    · rcases h.dash with e' | e' <;> rw [e'] at hn <;> exact absurd hn (by decide)
    · exact absurd (List.eq_of_mem_replicate hn) (by decide)
    · exact h.oneLine hn
  · rintro ⟨b, rest, hl, hb, hg⟩
    rw [e] at hl
    obtain ⟨rfl, rfl⟩ := List.cons.inj hl
    rcases hd with ⟨rfl, ht⟩ | rfl
    · rcases hg with rfl | hg
      · cases ht
      · rw [ht] at hg; exact absurd hg (by decide)
    · exact absurd hb (by decide)
  · rintro ⟨x, y, rest, hl, hx, _⟩
    rcases hl with ⟨hl, _⟩ | ⟨hl, _⟩
    · have hne : x ≠ [] := by
        rcases hx with rfl | hx
        · simp
        · exact hx.1
      obtain ⟨z, x, rfl⟩ := List.exists_cons_of_ne_nil hne
      rw [e] at hl
      obtain rfl : d = z := (List.cons.inj hl).1
      rcases hx with hx | ⟨_, hx | hx | hx | ⟨_, hx⟩⟩
      · have : d = '#' := (List.cons.inj hx).1
        rcases hd' with rfl | rfl <;> exact absurd this (by decide)
      all_goals have := hx d (by simp)
      all_goals rcases hd' with rfl | rfl <;> exact absurd this (by decide)
    · rw [e] at hl
      have : d = '(' := (List.cons.inj hl).1
      rcases hd' with rfl | rfl <;> exact absurd this (by decide)
  · rintro ⟨x, rest, hl, _⟩
    rw [e] at hl
    have : d = ':' := (List.cons.inj hl).1
    rcases hd' with rfl | rfl <;> exact absurd this (by decide)
  · rintro ⟨rest, hl, _⟩
    rw [e] at hl
    have : d = '.' := (List.cons.inj hl).1
    rcases hd' with rfl | rfl <;> exact absurd this (by decide)

theorem Spec.Signature.Ok.noBreak {s : Signature} (h : s.Ok) : ¬ str! "::newcol" <+: s.first := by
  obtain ⟨d, t, e, hd⟩ := h.head
  rintro ⟨x, hx⟩
  rw [e] at hx
  have : ':' = d := (List.cons.inj hx).1
  rcases hd with ⟨rfl, _⟩ | rfl <;> exact absurd this (by decide)

/-! ## Reading an attribution -/

theorem loop_aligned {k : Nat} {rest : List Str} (hk : 0 < k) (hr : ∀ l, rest.head? = some l → isBlank l = true ∨ indentOf l ≠ k) :
    ∀ (ls : List Str) (prev : Option Str), (∀ l ∈ ls, isBlank l = false ∧ indentOf l = k) →
    (readIndentedLoop true (some k) true (ls ++ rest) prev (some k)).lines = ls ∧
    (readIndentedLoop true (some k) true (ls ++ rest) prev (some k)).minimal = some k
  | [], prev, _ => by
    cases rest with
    | nil => exact ⟨rfl, rfl⟩
    | cons l rest =>
      rcases hr l rfl with h | h
      · simp [readIndentedLoop, h]
      · cases hb : isBlank l
        · simp [readIndentedLoop, hb, breakWhenNotAligned, h]
        · simp [readIndentedLoop, hb]
  | l :: ls, prev, h => by
    obtain ⟨h1, h2⟩ := loop_aligned hk hr ls (some l) (fun x hx => h x (by simp [hx]))
    obtain ⟨h3, h4⟩ := h l (by simp)
    rw [List.cons_append, readIndentedLoop]
    have e1 : ¬ k < 1 := by omega
    simp only [h3, h4, e1, breakWhenNotAligned, updateMinimal, h1, h2]
    simp

/-- The lines of an attribution are read. -/
theorem aligned_reads {src : List Str} {o k m : Nat} {l : Str} {ls rest : List Str} (hk : 0 < k)
    (h : src.drop o = l :: (ls ++ rest)) (hls : ∀ l ∈ ls, isBlank l = false ∧ indentOf l = k)
    (hr : ∀ l, rest.head? = some l → isBlank l = true ∨ indentOf l ≠ k) :
    ∃ b, readIndentedBlock src o true true (some k) (some m) true = .ok (.ok (l.drop m :: ls.map (·.drop k)) k (ls.length + 1) b) := by
  have hne : src.isEmpty = false := by
    cases hs : src with
    | nil => rw [hs] at h; simp at h
    | cons => rfl
  have hlen : ¬ src.length < o := by
    intro hlt
    rw [List.drop_eq_nil_of_le (by omega)] at h
    cases h
  obtain ⟨h1, h2⟩ := loop_aligned hk hr ls (some l) hls
  refine ⟨if (readIndentedLoop true (some k) true (ls ++ rest) (some l) (some k)).loopBroken then
    (readIndentedLoop true (some k) true (ls ++ rest) (some l) (some k)).blankFinish else true, ?_⟩
  simp only [readIndentedBlock, hne, Bool.false_eq_true, if_false, hlen, h, h1, h2, if_true, stripBlock,
    List.length_cons, List.length_map, Option.or]

/-- The indentation of the further lines of an attribution. -/
theorem attribution_aligned {E : Env} {s : Signature} {o q : Nat} {rest : List Str} (hs : s.Ok) (hq : 0 < q)
    (h : E.src.drop o = s.lines q ++ rest) (hr : s.after = [] → Low q rest) (m : Nat) (hm : q ≤ m) :
    ∃ b, readIndentedBlock E.src o true true (some (attributionIndent E q m o)) (some m) true =
      .ok (.ok ((indentLine q s.first).drop m :: s.more) (attributionIndent E q m o) (s.more.length + 1) b) := by
  have hsrc : E.src.drop o = indentLine q s.first :: (s.more.map (indentLine (q + s.deep)) ++ (s.after ++ rest)) := by
    rw [h]; simp [Signature.lines]
  have hsrc' : E.src.drop (o + 1) = s.more.map (indentLine (q + s.deep)) ++ (s.after ++ rest) := by
    rw [← List.drop_drop, hsrc]; rfl
  have hafter : s.after ≠ [] → ∀ l, (s.after ++ rest).head? = some l → isBlank l = true := by
    intro hne l hl
    obtain ⟨a, as, ha⟩ := List.exists_cons_of_ne_nil hne
    rw [ha] at hl
    obtain rfl : a = l := by simpa using hl
    exact hs.blank a (by rw [ha]; simp)
  have hvis : ∀ l, TextLine l → ∀ k, isBlank (indentLine k l) = false ∧ indentOf (indentLine k l) = k := by
    intro l hl k
    obtain ⟨c, t, rfl, hc⟩ := hl.cons
    exact ⟨indented_not_blank hc k, indentOf_indented hc k⟩
  cases hmore : s.more with
  | cons x xs =>
    have hx := hvis x (hs.more x (by rw [hmore]; simp)) (q + s.deep)
    have hnext : attributionIndent E q m o = q + s.deep := by
      unfold attributionIndent indentOnSubsequentLines
      rw [hsrc', hmore]
      simp [hx.1, hx.2]
    rw [hnext]
    obtain ⟨b, hb⟩ := aligned_reads (m := m) (k := q + s.deep) (by omega) hsrc (by
      intro l hl
      obtain ⟨y, hy, rfl⟩ := List.mem_map.mp hl
      exact hvis y (hs.more y hy) _) (by
      intro l hl
      by_cases hne : s.after = []
      · rw [hne, List.nil_append] at hl
        have := (hr hne l hl).2
        exact .inr (by omega)
      · exact .inl (hafter hne l hl))
    refine ⟨b, ?_⟩
    rw [hb, ← hmore, List.map_map, List.length_map]
    have : s.more.map ((fun x => x.drop (q + s.deep)) ∘ indentLine (q + s.deep)) = s.more := by
      conv => rhs; rw [← List.map_id s.more]
      exact List.map_congr_left fun l _ => drop_indentLine _ l
    rw [this]
  | nil =>
    rw [hmore] at hsrc hsrc'
    have hnext : q ≤ attributionIndent E q m o := by
      unfold attributionIndent
      split
      · split <;> omega
      · exact hm
    obtain ⟨b, hb⟩ := aligned_reads (m := m) (k := attributionIndent E q m o) (ls := []) (by omega) hsrc (by simp) (by
      intro l hl
      by_cases hne : s.after = []
      · rw [hne, List.nil_append] at hl
        have := (hr hne l hl).2
        exact .inr (by omega)
      · exact .inl (hafter hne l hl))
    exact ⟨b, hb⟩

theorem simple_attribution : Simple .Attribution := ⟨by decide, by decide, by decide, by decide, by decide⟩
theorem simple_quote : Simple .BlockQuote := ⟨by decide, by decide, by decide, by decide, by decide⟩

/-- An open block quote. -/
abbrev quoteFrame (q : Nat) (ss : List Shape) : Frame := ⟨.BlockQuote, .BlockQuote q, ss, []⟩

theorem quoteFrame_body (E : Env) (q : Nat) (ss : List Shape) : (quoteFrame q ss).Body E q :=
  ⟨.quote E, by simp [State.readable], rfl, fun k hk => takes_body (p := .BlockQuote) rfl (by decide) hk⟩

theorem tableOf_quote (E : Env) : tableOf E .BlockQuote = .ok ((reBlankLine, emptyLine) :: (reAttribution, attribution E) :: bodyRest E) := rfl

/-- An attribution closes the block quote. -/
theorem AtL.attribution {E : Env} {S : SectionData} {os : List Frame} {t : LoopState} {f : Frame} {fs : List Frame} {s : Signature} {rest : List Str}
    {q c : Nat} {ss : List Shape} (h0 : E.baseIndent = 0) (h : At E S os t (quoteFrame q ss :: f :: fs) (s.lines q ++ rest) c) (hc : c ≤ 9)
    (hs : s.Ok) (hq : 0 < q) (hr : s.after = [] → Low q rest) :
    Leads E S os t (f.add [.node (.BlockQuote q) (ss ++ [.node (.Attribution s.author) []])] :: fs) (s.after ++ rest) 0 := by
  have hsp := h.spine
  generalize hz : t.ps.doc.tree = z at hsp
  cases hsp with
  | mk hl ha =>
    rename_i n cs path
    obtain ⟨d1, n', p1, p2, p3, p4⟩ := P.push_ok (s := t.ps) (data := .Attribution s.author) (cs := cs) (by rw [hz]; exact hl.2.1)
      (by rw [hz]; show childIsAllowed n.data.kind _ = _; rw [hl.1]; show childIsAllowed .BlockQuote .Attribution = _; decide) simple_attribution
      (congrArg Prod.snd h.secs)
    have hsp1 : Spine d1.tree ((quoteFrame q ss).add [.node (.Attribution s.author) []] :: f :: (fs ++ os)) := by
      rw [p4, hz]
      exact .mk (hl.add (ns := [n']) (by simp [shapesOf, p3])) ha
    obtain ⟨d2, q1, q2, q3⟩ := hsp1.parent
    have e1 : s.lines q ++ rest = indentLine q s.first :: (s.more.map (indentLine (q + s.deep)) ++ (s.after ++ rest)) := by
      simp [Signature.lines]
    have hblank : isBlank (indentLine q s.first) = false := by
      obtain ⟨c, t, e, hc⟩ := hs.firstLine.toTextLine.cons
      rw [e]; exact indented_not_blank hc q
    have htr : firstTransition (indentLine q s.first) ((reBlankLine, emptyLine) :: (reAttribution, Rustla.attribution E) :: bodyRest E) =
        some (⟨spaces q ++ (s.dash ++ List.replicate s.space ' '), s.text, [(.g1, spaces q)]⟩, Rustla.attribution E) := by
      simp only [firstTransition, blankLine_dead hblank, signature_captures hs q]
    obtain ⟨b, hread⟩ := attribution_aligned (o := t.ps.cursor.relativeOffset) hs hq h.here hr
      (spaces q ++ (s.dash ++ List.replicate s.space ' ')).length (by simp)
    have hdrop : (indentLine q s.first).drop (spaces q ++ (s.dash ++ List.replicate s.space ' ')).length = s.text := by
      have : indentLine q s.first = (spaces q ++ (s.dash ++ List.replicate s.space ' ')) ++ s.text := by
        simp [indentLine, Signature.first, spaces]
      rw [this, List.drop_left]
    have hne : isBlank s.text = false := by
      obtain ⟨c, h1, h2⟩ := hs.start
      cases hx : s.text with
      | nil => rw [hx] at h1; cases h1
      | cons x u => rw [hx] at h1; obtain rfl : x = c := by simpa using h1
                    exact indented_not_blank (t := u) h2 0
    have hlen : (spaces q ++ (s.dash ++ List.replicate s.space ' ')).length ≥ 1 := by simp; omega
    have hget : E.src[t.ps.cursor.relativeOffset]? = some (indentLine q s.first) := by
      have := congrArg (·[0]?) (h.here.trans e1)
      simpa using this
    have hind : parentIndentMatches t.ps.doc.tree.node.data q = .ok .justRight := by
      unfold parentIndentMatches
      rw [hz, hl.1]
      simp [NodeType.bodyIndent]
    have hact : Rustla.attribution E ⟨spaces q ++ (s.dash ++ List.replicate s.space ' '), s.text, [(.g1, spaces q)]⟩ t.ps =
        .ok (.pop, some (s.more.length + 1)) { t.ps with doc := d2 } := by
      have hg : (⟨spaces q ++ (s.dash ++ List.replicate s.space ' '), s.text, [(.g1, spaces q)]⟩ : Match).getD .g1 = spaces q := rfl
      have hg2 : (spaces q).length = q := by simp [spaces]
      unfold Rustla.attribution
      simp only [hg, hg2, h0, Nat.add_zero]
      generalize hm : (spaces q ++ (s.dash ++ List.replicate s.space ' ')).length = m at *
      have hsub : checkedSub m 1 "mod.rs line_suffix" = .ok (m - 1) := by unfold checkedSub; rw [if_neg (by omega)]
      rw [hdrop] at hread
      simp only [atIndent, bind, P.bind, P.lift, P.doc, DocTree.sharedData, hind, currentLine, P.offset, hget, pure, P.pure, hsub, hdrop, hne,
        Bool.false_eq_true, if_false, hread]
      have p1' : P.push (.Attribution (trim (joinWith [' '] (s.text :: s.more)))) t.ps = .ok () { t.ps with doc := d1 } := p1
      simp only [p1', P.parent, q1]
    rw [e1] at h
    have hpop : applyPushOrPop t.stack .pop = .ok ((fs.map (·.st)).reverse ++ [f.st]) := by
      rw [h.stack]; simp [stackFor, applyPushOrPop]
    have := step_moved (h.stands hc) (tableOf_quote E) (by simp) htr hact hpop (k := s.more.length + 1) rfl (by omega) (by simp)
    have hd : (indentLine q s.first :: (s.more.map (indentLine (q + s.deep)) ++ (s.after ++ rest))).drop (s.more.length + 1) = s.after ++ rest := by
      simp
    refine ⟨_, .step this, ⟨?_, ?_, ?_, Nat.le_refl _, (q3.trans p2).trans h.secs⟩⟩
    · have := drop_incr h.here (s.more.length + 1)
      rw [this, hd]
    · exact q2
    · rw [hd]; simp [Frame.add]

end Rustla
