import Verif.Lemmas.Roles
/-! # References in the inline patterns -/
namespace Rustla
open Spec

theorem First.star_cons {a : Re} {s : Str} {cs : Caps} {q q' : Str × Caps} (h : First a s cs q) (hl : q.1.length < s.length)
    (h' : First (.star true a) q.1 q.2 q') : First (.star true a) s cs q' := by
  obtain ⟨zs, h⟩ := h
  obtain ⟨ws, h'⟩ := h'
  rw [Re.run] at h'
  cases s with
  | nil => simp at hl
  | cons c s =>
    have hf : Rustla.starRun true a.run s.length q.1 q.2 = q' :: ws := by
      rw [← h']
      exact starRun_fuel _ _ _ _ _ _ (by simpa using Nat.lt_succ_iff.mp hl) (Nat.le_refl _)
    unfold First
    rw [Re.run, List.length_cons, Rustla.starRun, h]
    simp only [if_true, List.flatMap_cons, if_pos hl, hf, List.cons_append]
    exact ⟨_, rfl⟩

theorem First.star_nil {a : Re} {s : Str} {cs : Caps} (h : a.run s cs = []) : First (.star true a) s cs (s, cs) := by
  unfold First
  rw [Re.run]
  cases s with
  | nil => exact ⟨[], rfl⟩
  | cons c s => exact ⟨[], by simp [Rustla.starRun, h]⟩

/-- Text that does not continue a name. -/
def NoName (e : Str) : Prop := ∀ c, e.head? = some c → c.isAlphanum = false

theorem noName_cls {e : Str} (h : NoName e) : ∀ c, e.head? = some c → clsAlnum c = false := by
  intro c hc
  rw [Bool.eq_false_iff, ne_eq, alnum_cls, h c hc]; decide

/-- The parts of a name are matched one after the other. -/
theorem name_parts {a : Re} {cs : Caps} {e : Str} {l : List (Char × Str)} (he : NoName e) (hd : a.run e cs = [])
    (hl : ∀ p ∈ l, p.1.isAlphanum = false ∧ ∀ rest, NoName rest → First a (p.1 :: p.2 ++ rest) cs (rest, cs)) :
    NoName ((l.map fun p => p.1 :: p.2).flatten ++ e) ∧
      First (.star true a) ((l.map fun p => p.1 :: p.2).flatten ++ e) cs (e, cs) := by
  induction l with
  | nil => exact ⟨he, .star_nil hd⟩
  | cons p l ih =>
    obtain ⟨h1, h2⟩ := ih fun p hp => hl p (by simp [hp])
    obtain ⟨h3, h4⟩ := hl p (by simp)
    refine ⟨?_, ?_⟩
    · intro c hc
      simp only [List.map_cons, List.flatten_cons, List.cons_append, List.head?_cons, Option.some.injEq] at hc
      subst hc; exact h3
    · simp only [List.map_cons, List.flatten_cons, List.append_assoc]
      refine (h4 _ h1).star_cons ?_ h2
      simp only [List.length_append, List.length_cons]
      omega

/-- Letters and digits. -/
theorem name_plus {w rest : Str} (hne : w ≠ []) (hw : ∀ c ∈ w, c.isAlphanum = true) (hr : NoName rest) (cs : Caps) :
    First (Re.plus true (.cls clsAlnum)) (w ++ rest) cs (rest, cs) :=
  .plus hne (fun c hc => alnum_cls.mpr (hw c hc)) (noName_cls hr) cs

theorem closed_noName {s : Str} (h : Closed s) : NoName s := by
  intro c hc
  cases hal : c.isAlphanum with
  | false => rfl
  | true =>
    exfalso
    rcases h c hc with h | h | ⟨rfl, _⟩
    · rw [alnum_not_ws hal] at h; cases h
    · have : closing.all (fun c => !c.isAlphanum) = true := by decide
      have := List.all_eq_true.mp this c h
      rw [hal] at this; cases this
    · revert hal; decide

theorem closed_ne {s : Str} (h : Closed s) {m : Char} (hm : isWs m = false) (hc : m ∉ closing) (hk : m ≠ ':') : s.head? ≠ some m := by
  intro e
  rcases h m e with h | h | h
  · rw [hm] at h; cases h
  · exact hc h
  · exact hk h.1

/-- The look-ahead takes the next character. -/
theorem First.lookahead {s : Str} (h : Closed s) (cs : Caps) : First lookaheadRe s cs (s.tail, (.lookahead, s.take 1) :: cs) := by
  cases s with
  | nil => exact ⟨[], by simp [Re.run]⟩
  | cons c s =>
    refine First.cap (w := [c]) (s := s) ?_
    cases hw : isWs c with
    | true => exact .left (.cls hw _ _)
    | false =>
      have hla : clsLookahead c = true := by
        rcases h c rfl with h | h | ⟨rfl, _⟩
        · rw [hw] at h; cases h
        · exact closing_lookahead h
        · decide
      exact .right (by simp [Re.run, hw]) (.left (.cls hla _ _))

theorem First.single_chr (a : Char) (s : Str) (cs : Caps) : First (.chr a) (a :: s) cs (s, cs) := .cls (by simp) s cs

theorem First.captures' {r : Re} {s : Str} {q : Str × Caps} (h : First r s [] q) : ∃ w t, r.captures s = some ⟨w, t, q.2⟩ := by
  obtain ⟨zs, h⟩ := h
  unfold Re.captures
  rw [h]
  exact ⟨_, _, rfl⟩

theorem chr_dead {m : Char} {s : Str} (h : s.head? ≠ some m) (cs : Caps) : (Re.chr m).run s cs = [] := by
  cases s with
  | nil => rfl
  | cons a s =>
    refine run_chr_ne ?_ _
    rintro rfl; exact h rfl

/-- The underscore behind a reference. -/
theorem First.underscore {rest : Str} (hr : Closed rest) (cs : Caps) :
    First (.cap .refType (.seq (.chr '_') (Re.opt (.chr '_')))) ('_' :: rest) cs (rest, (.refType, ['_']) :: cs) := by
  refine First.cap (w := ['_']) (s := rest) (cs' := cs) ((First.single_chr '_' rest cs).seq (.opt_none (chr_dead ?_ cs)))
  exact closed_ne hr (by decide) (by decide) (by decide)

theorem Spec.Name.head {seps : List Char} {n : Name} (h : n.Ok seps) (e : Str) :
    ∃ a t, n.text ++ e = a :: t ∧ a.isAlphanum = true ∧ n.first.head? = some a := by
  obtain ⟨⟨hne, hall⟩, _⟩ := h
  cases hf : n.first with
  | nil => exact absurd hf hne
  | cons a t => exact ⟨a, _, by rw [Name.text, hf]; rfl, hall a (by rw [hf]; simp), rfl⟩

/-- A name has no white space around it. -/
theorem Spec.Name.trim {seps : List Char} {n : Name} (hs : seps.all (fun c => !isWs c) = true := by decide) (h : n.Ok seps) :
    Rustla.trim n.text = n.text := by
  obtain ⟨⟨hne, hall⟩, hrest⟩ := h
  have hw : ∀ c ∈ n.text, isWs c = false := by
    intro c hc
    rcases List.mem_append.mp hc with hc | hc
    · exact alnum_not_ws (hall c hc)
    · obtain ⟨l, hl, hc⟩ := List.mem_flatten.mp hc
      obtain ⟨p, hp, rfl⟩ := List.mem_map.mp hl
      obtain ⟨h1, _, h3⟩ := hrest p hp
      rcases List.mem_cons.mp hc with rfl | hc
      · simpa using List.all_eq_true.mp hs _ h1
      · exact alnum_not_ws (h3 c hc)
  have h0 : ∀ s : Str, (∀ c ∈ s, isWs c = false) → s.dropWhile isWs = s := by
    intro s hs
    cases s with
    | nil => rfl
    | cons a s => simp [hs a (by simp)]
  unfold Rustla.trim trimEnd trimStart
  rw [h0 _ hw, h0 _ (fun c hc => hw c (by simpa using hc)), List.reverse_reverse]

theorem noName_chr {a : Char} {s : Str} (h : a.isAlphanum = false) : NoName (a :: s) := by
  intro c hc; cases hc; exact h

/-- A simple reference. -/
theorem ref_captures {n : Name} {rest : Str} (h : n.Ok ['-', '.', '+', '_']) (hr : Closed rest) :
    ∃ w t u, reSimpleRef.captures (n.text ++ '_' :: rest) =
      some ⟨w, t, (.lookahead, u) :: (.refType, ['_']) :: (.content, n.text) :: []⟩ := by
  obtain ⟨⟨hne, hall⟩, hrest⟩ := h
  have hu : NoName ('_' :: rest) := noName_chr (by decide)
  obtain ⟨hnn, hstar⟩ := name_parts (a := .seq (.cls clsSimpleRefSep) (Re.plus true (.cls clsAlnum))) (cs := []) (e := '_' :: rest)
    (l := n.rest) hu (by
      simp only [Re.run, show clsSimpleRefSep '_' = true from by decide, if_true, List.flatMap_cons, List.flatMap_nil, List.append_nil]
      refine run_seq_dead ?_
      cases rest with
      | nil => rfl
      | cons c rest =>
        have := noName_cls (closed_noName hr) c rfl
        simp [Re.run, this]) (by
      intro p hp
      obtain ⟨h1, h2, h3⟩ := hrest p hp
      have hsep : clsSimpleRefSep p.1 = true ∧ p.1.isAlphanum = false := by
        have : (['-', '.', '+', '_'].all fun c => clsSimpleRefSep c && !c.isAlphanum) = true := by decide
        have := List.all_eq_true.mp this _ h1
        simpa using this
      exact ⟨hsep.2, fun rest hr => (First.cls hsep.1 _ _).seq (name_plus h2 h3 hr _)⟩)
  have hcont : First (.cap .content (.seq (Re.plus true (.cls clsAlnum)) (.star true (.seq (.cls clsSimpleRefSep)
      (Re.plus true (.cls clsAlnum)))))) (n.text ++ '_' :: rest) [] ('_' :: rest, [(.content, n.text)]) := by
    refine First.cap ?_
    rw [Name.text, List.append_assoc]
    exact (name_plus hne hall hnn []).seq hstar
  have hla := First.lookahead hr [(.refType, ['_']), (.content, n.text)]
  have hbody := hcont.seq ((First.underscore hr _).seq hla)
  obtain ⟨a, t, ea, haa, _⟩ := Spec.Name.head (n := n) ⟨⟨hne, hall⟩, hrest⟩ ('_' :: rest)
  have hb : First (Re.opt (.cap .lookbehind (.cls clsLookbehind))) (n.text ++ '_' :: rest) [] (n.text ++ '_' :: rest, []) := by
    rw [ea]
    exact ⟨[], behind_none (alnum_behind haa) _⟩
  obtain ⟨w, t', hw⟩ := (hb.seq hbody).captures'
  exact ⟨w, t', _, hw⟩

/-- The parts of the pattern for a citation. -/
theorem cite_captures {n : Name} {rest : Str} (h : n.Ok ['-', '.', '_']) (hr : Closed rest) :
    ∃ w t u, reCitationRef.captures ('[' :: (n.text ++ ']' :: '_' :: rest)) =
      some ⟨w, t, (.lookahead, u) :: (.markupEnd, [']', '_']) :: (.content, n.text) :: (.markupStart, ['[']) :: []⟩ := by
  obtain ⟨⟨hne, hall⟩, hrest⟩ := h
  have hu : NoName (']' :: '_' :: rest) := noName_chr (by decide)
  have hsepEnd : (Re.cls clsCiteSep).run (']' :: '_' :: rest) [(.markupStart, ['['])] = [] := by
    simp [Re.run, show clsCiteSep ']' = false from by decide]
  obtain ⟨hnn, hstar⟩ := name_parts (a := .seq (Re.opt (.cls clsCiteSep)) (Re.plus true (.cls clsAlnum))) (cs := [(.markupStart, ['['])])
    (e := ']' :: '_' :: rest) (l := n.rest) hu (by
      have e1 : (Re.opt (.cls clsCiteSep)).run (']' :: '_' :: rest) [(.markupStart, ['['])] = [(']' :: '_' :: rest, [(.markupStart, ['['])])] := by
        rw [Re.opt, Re.run, hsepEnd]; rfl
      rw [Re.run, e1, List.flatMap_singleton]
      refine run_seq_dead ?_
      simp [Re.run, show clsAlnum ']' = false from by decide]) (by
      intro p hp
      obtain ⟨h1, h2, h3⟩ := hrest p hp
      have hsep : clsCiteSep p.1 = true ∧ p.1.isAlphanum = false := by
        have : (['-', '.', '_'].all fun c => clsCiteSep c && !c.isAlphanum) = true := by decide
        have := List.all_eq_true.mp this _ h1
        simpa using this
      exact ⟨hsep.2, fun rest hr => (First.opt (First.cls hsep.1 _ _)).seq (name_plus h2 h3 hr _)⟩)
  have hcont : First (.cap .content (.seq (.cls clsAlnum) (.seq (.star true (.cls clsAlnum)) (.star true (.seq (Re.opt (.cls clsCiteSep))
      (Re.plus true (.cls clsAlnum))))))) (n.text ++ ']' :: '_' :: rest) [(.markupStart, ['['])]
      (']' :: '_' :: rest, [(.content, n.text), (.markupStart, ['['])]) := by
    refine First.cap ?_
    rw [Name.text, List.append_assoc]
    cases hf : n.first with
    | nil => exact absurd hf hne
    | cons a f =>
      rw [hf] at hall
      refine (First.cls (alnum_cls.mpr (hall a (by simp))) _ _).seq ?_
      exact (First.star (fun c hc => alnum_cls.mpr (hall c (by simp [hc]))) (noName_cls hnn) _).seq hstar
  have hla := First.lookahead hr [(.markupEnd, [']', '_']), (.content, n.text), (.markupStart, ['['])]
  have hend : First (.cap .markupEnd (Re.lit (str! "]_"))) (']' :: '_' :: rest) [(.content, n.text), (.markupStart, ['['])]
      (rest, [(.markupEnd, [']', '_']), (.content, n.text), (.markupStart, ['['])]) :=
    First.cap (w := [']', '_']) ⟨[], run_lit [']', '_'] rest _⟩
  have hstart : First (.cap .markupStart (.chr '[')) ('[' :: (n.text ++ ']' :: '_' :: rest)) [] (n.text ++ ']' :: '_' :: rest, [(.markupStart, ['['])]) :=
    First.cap (w := ['[']) (First.single_chr _ _ _)
  obtain ⟨zs, hbody⟩ := hstart.seq (hcont.seq (hend.seq hla))
  obtain ⟨a, t, ea, haa, _⟩ := Spec.Name.head (n := n) ⟨⟨hne, hall⟩, hrest⟩ (']' :: '_' :: rest)
  have hb : (Re.opt (.cap .lookbehind (.cls clsLookbehind))).run ('[' :: (n.text ++ ']' :: '_' :: rest)) [] =
      [(n.text ++ ']' :: '_' :: rest, [(Grp.lookbehind, ['['])]), ('[' :: (n.text ++ ']' :: '_' :: rest), [])] := by
    have e2 : ('[' :: (n.text ++ ']' :: '_' :: rest)) = ['['] ++ (n.text ++ ']' :: '_' :: rest) := rfl
    simp only [Re.opt, Re.run, show clsLookbehind '[' = true from by decide, if_true, List.map_cons, List.map_nil, List.cons_append, List.nil_append]
    rw [e2, take_sub]
  have hall' : First reCitationRef ('[' :: (n.text ++ ']' :: '_' :: rest)) [] (rest.tail, [(.lookahead, rest.take 1), (.markupEnd, [']', '_']), (.content, n.text), (.markupStart, ['['])]) := by
    refine ⟨zs, ?_⟩
    rw [reCitationRef, Re.run, hb, List.flatMap_cons, List.flatMap_singleton]
    rw [run_seq_dead (run_cap_dead (by rw [ea]; exact run_chr_ne (by rintro rfl; revert haa; decide) _)), List.nil_append]
    exact hbody
  obtain ⟨w, t', hw⟩ := hall'.captures'
  exact ⟨w, t', _, hw⟩

/-- The parts of the pattern for a reference to a footnote. -/
theorem footRef_captures {n rest : Str} (hne : n ≠ []) (hn : ∀ c ∈ n, c.isDigit = true) (hr : Closed rest) :
    ∃ w t u, reFootnoteRef.captures ('[' :: (n ++ ']' :: '_' :: rest)) =
      some ⟨w, t, (.lookahead, u) :: (.refType, ['_']) :: (.markupEnd, [']']) :: (.content, n) :: (.number, n) :: (.markupStart, ['[']) :: []⟩ := by
  have hcont : First (.cap .content (.alt (.cap .number (Re.plus true (.cls clsDigit))) (.alt (.cap .autoNumber (.chr '#')) (.alt
      (.seq (.chr '#') (.cap .autoNumberLabel (.seq (.cls clsAlpha) (.star true (.cap .g7 (.seq (Re.opt (.chr
      '-')) (Re.plus true (.cls clsAlnum)))))))) (.cap .symbol (.chr '*')))))) (n ++ ']' :: '_' :: rest) [(.markupStart, ['['])]
      (']' :: '_' :: rest, [(.content, n), (.number, n), (.markupStart, ['['])]) := by
    refine First.cap (.left (First.cap (.plus hne (fun c hc => by rw [digit_cls]; exact hn c hc) ?_ _)))
    intro c hc
    cases hc; decide
  have hla := First.lookahead hr [(.refType, ['_']), (.markupEnd, [']']), (.content, n), (.number, n), (.markupStart, ['['])]
  have hend : First (.cap .markupEnd (.chr ']')) (']' :: '_' :: rest) [(.content, n), (.number, n), (.markupStart, ['['])]
      ('_' :: rest, [(.markupEnd, [']']), (.content, n), (.number, n), (.markupStart, ['['])]) :=
    First.cap (w := [']']) (First.single_chr _ _ _)
  have hstart : First (.cap .markupStart (.chr '[')) ('[' :: (n ++ ']' :: '_' :: rest)) [] (n ++ ']' :: '_' :: rest, [(.markupStart, ['['])]) :=
    First.cap (w := ['[']) (First.single_chr _ _ _)
  obtain ⟨zs, hbody⟩ := hstart.seq (hcont.seq (hend.seq ((First.underscore hr _).seq hla)))
  have hb : (Re.opt (.cap .lookbehind (.cls clsLookbehind))).run ('[' :: (n ++ ']' :: '_' :: rest)) [] =
      [(n ++ ']' :: '_' :: rest, [(Grp.lookbehind, ['['])]), ('[' :: (n ++ ']' :: '_' :: rest), [])] := by
    have e2 : ('[' :: (n ++ ']' :: '_' :: rest)) = ['['] ++ (n ++ ']' :: '_' :: rest) := rfl
    simp only [Re.opt, Re.run, show clsLookbehind '[' = true from by decide, if_true, List.map_cons, List.map_nil, List.cons_append, List.nil_append]
    rw [e2, take_sub]
  have hall' : First reFootnoteRef ('[' :: (n ++ ']' :: '_' :: rest)) [] (rest.tail, [(.lookahead, rest.take 1), (.refType, ['_']),
      (.markupEnd, [']']), (.content, n), (.number, n), (.markupStart, ['['])]) := by
    refine ⟨zs, ?_⟩
    rw [reFootnoteRef, Re.run, hb, List.flatMap_cons, List.flatMap_singleton]
    rw [run_seq_dead (run_cap_dead (chr_dead (m := '[') (by
      cases n with
      | nil => exact absurd rfl hne
      | cons a n => rintro h; cases h; exact absurd (hn '[' (by simp)) (by decide)) _)), List.nil_append]
    exact hbody
  obtain ⟨w, t', hw⟩ := hall'.captures'
  exact ⟨w, t', _, hw⟩

/-- What comes after the text of a reference by several words. -/
abbrev phraseEnd : Re :=
  .seq (Re.opt (.cap .embededUriContainer (.seq (Re.plus true (.cls isWs)) (.seq (.chr '<') (.seq (.cap .embeddedUri contentRe) (.chr '>'))))))
    (.seq (.cap .markupEnd (.chr '`')) (.seq (.cap .refType (.seq (.chr '_') (Re.opt (.chr '_')))) lookaheadRe))

theorem rePhrase_eq : rePhraseRef =
    .seq (Re.opt (.cap .lookbehind (.cls clsLookbehind))) (.seq (.cap .markupStart (.chr '`')) (.seq (.cap .content contentRe) phraseEnd)) := rfl

/-- A reference by several words does not end before a text without angle brackets and back quotes does. -/
theorem phraseEnd_dead {v e : Str} (hv : v ≠ []) (h1 : '`' ∉ v) (h2 : '<' ∉ v) (hl : ∃ y, v.getLast? = some y ∧ isWs y = false) (cs : Caps) :
    phraseEnd.run (v ++ e) cs = [] := by
  have hcont : (Re.cap .embededUriContainer (.seq (Re.plus true (.cls isWs)) (.seq (.chr '<') (.seq (.cap .embeddedUri contentRe)
      (.chr '>'))))).run (v ++ e) cs = [] := by
    refine run_cap_dead ?_
    rw [Re.run, List.flatMap_eq_nil_iff]
    intro q hq
    obtain ⟨_, m, _, em, hm⟩ := mem_plus_cls.mp hq
    refine run_seq_dead (chr_dead ?_ _)
    intro hh
    obtain ⟨t, ht⟩ : ∃ t, q.1 = '<' :: t := by
      cases hq1 : q.1 with
      | nil => rw [hq1] at hh; cases hh
      | cons a t => rw [hq1] at hh; cases hh; exact ⟨t, rfl⟩
    rw [ht] at em
    obtain ⟨y, hy, hyw⟩ := hl
    rcases List.append_eq_append_iff.mp em with ⟨u, rfl, e2⟩ | ⟨u, rfl, e2⟩
    · have := hm y (by
        rw [List.mem_append]; exact .inl (List.mem_of_getLast? hy))
      rw [hyw] at this; cases this
    · cases u with
      | nil =>
        rw [List.append_nil] at hy
        have := hm y (List.mem_of_getLast? hy)
        rw [hyw] at this; cases this
      | cons z u =>
        simp only [List.cons_append, List.cons.injEq] at e2
        exact h2 (by rw [← e2.1]; simp)
  unfold phraseEnd
  rw [Re.run]
  rw [show ∀ a : Re, (Re.opt a).run (v ++ e) cs = a.run (v ++ e) cs ++ [(v ++ e, cs)] from fun a => by rw [Re.opt, Re.run]; rfl]
  rw [hcont, List.nil_append, List.flatMap_singleton]
  refine run_seq_dead (run_cap_dead (chr_dead ?_ _))
  cases v with
  | nil => exact absurd rfl hv
  | cons a v =>
    intro hh
    simp only [List.cons_append, List.head?_cons, Option.some.injEq] at hh
    exact h1 (by rw [hh]; simp)

/-- The mark and the underscore behind a reference. -/
theorem tick_first {rest : Str} (hr : Closed rest) (cs : Caps) :
    First (.seq (.cap .markupEnd (.chr '`')) (.seq (.cap .refType (.seq (.chr '_') (Re.opt (.chr '_')))) lookaheadRe))
      ('`' :: '_' :: rest) cs (rest.tail, (.lookahead, rest.take 1) :: (.refType, ['_']) :: (.markupEnd, ['`']) :: cs) :=
  (First.cap (w := ['`']) (First.single_chr '`' _ _)).seq ((First.underscore hr _).seq (First.lookahead hr _))

theorem tick_behind (s : Str) : First (Re.opt (.cap .lookbehind (.cls clsLookbehind))) ('`' :: s) [] ('`' :: s, []) :=
  ⟨[], behind_none (by decide) _⟩

theorem marked_suffix {m : Char} {c u v : Str} (h : Marked m c) (e : c = u ++ v) (hv : v ≠ []) : ∃ y, v.getLast? = some y ∧ isWs y = false := by
  obtain ⟨_, _, y, hy, hyw, _⟩ := h
  refine ⟨y, ?_, hyw⟩
  rw [e, List.getLast?_append] at hy
  cases hl : v.getLast? with
  | none => exact absurd (List.getLast?_eq_none_iff.mp hl) hv
  | some z => rw [hl] at hy; simpa using hy

/-- A reference by several words. -/
theorem phrase_captures {c rest : Str} (h : Marked '`' c) (ha : '<' ∉ c) (hr : Closed rest) :
    ∃ w t u, rePhraseRef.captures ('`' :: (c ++ '`' :: '_' :: rest)) =
      some ⟨w, t, (.lookahead, u) :: (.refType, ['_']) :: (.markupEnd, ['`']) :: (.content, c) :: (.markupStart, ['`']) :: []⟩ := by
  have hopt : First phraseEnd ('`' :: '_' :: rest) ((.content, c) :: (.markupStart, ['`']) :: []) _ :=
    (First.opt_none (run_cap_dead (run_seq_dead (run_seq_dead (by simp [Re.run, show isWs '`' = false from by decide]))))).seq (tick_first hr _)
  obtain ⟨zs, hz⟩ := hopt
  obtain ⟨zs', hcont⟩ := text_run (g := .content) (e := '`' :: '_' :: rest) h.2.1 h.2.2 [(.markupStart, ['`'])]
    (fun r => phraseEnd.run r.1 r.2) (by
      intro a b cs hab hb
      exact phraseEnd_dead hb (fun hm => h.1 (by rw [hab]; simp [hm])) (fun hm => ha (by rw [hab]; simp [hm])) (marked_suffix h hab hb) cs) hz
  have hin : First (.seq (.cap .content contentRe) phraseEnd) (c ++ '`' :: '_' :: rest) [(.markupStart, ['`'])]
      (rest.tail, (.lookahead, rest.take 1) :: (.refType, ['_']) :: (.markupEnd, ['`']) :: (.content, c) :: (.markupStart, ['`']) :: []) :=
    ⟨zs', by rw [Re.run]; exact hcont⟩
  have hall : First rePhraseRef ('`' :: (c ++ '`' :: '_' :: rest)) []
      (rest.tail, (.lookahead, rest.take 1) :: (.refType, ['_']) :: (.markupEnd, ['`']) :: (.content, c) :: (.markupStart, ['`']) :: []) := by
    rw [rePhrase_eq]
    exact (tick_behind _).seq ((First.cap (w := ['`']) (First.single_chr '`' _ _)).seq hin)
  obtain ⟨w, t, hw⟩ := hall.captures'
  exact ⟨w, t, _, hw⟩

/-- A reference to an address. -/
theorem link_captures {c gap uri rest : Str} (h : Marked '`' c) (ha : '<' ∉ c) (hg : gap ≠ []) (hgw : ∀ x ∈ gap, isWs x = true)
    (hu : Marked '>' uri) (hr : Closed rest) :
    rePhraseRef.captures ('`' :: (c ++ (gap ++ '<' :: (uri ++ '>' :: '`' :: '_' :: rest)))) =
      some ⟨'`' :: (c ++ (gap ++ '<' :: (uri ++ '>' :: '`' :: '_' :: rest.take 1))), rest.tail,
        (.lookahead, rest.take 1) :: (.refType, ['_']) :: (.markupEnd, ['`']) :: (.embededUriContainer, gap ++ '<' :: (uri ++ ['>'])) ::
        (.embeddedUri, uri) :: (.content, c) :: (.markupStart, ['`']) :: []⟩ := by
  have huri : First (.seq (.cap .embeddedUri contentRe) (.chr '>')) (uri ++ '>' :: '`' :: '_' :: rest) ((.content, c) :: (.markupStart, ['`']) :: [])
      ('`' :: '_' :: rest, (.embeddedUri, uri) :: (.content, c) :: (.markupStart, ['`']) :: []) := by
    obtain ⟨zs, hz⟩ := text_run (g := .embeddedUri) (e := '>' :: '`' :: '_' :: rest) hu.2.1 hu.2.2 ((.content, c) :: (.markupStart, ['`']) :: [])
      (fun r => (Re.chr '>').run r.1 r.2) (by
        intro a b cs hab hb
        refine chr_dead ?_ _
        cases b with
        | nil => exact absurd rfl hb
        | cons y b =>
          intro hh
          simp only [List.cons_append, List.head?_cons, Option.some.injEq] at hh
          exact hu.1 (by rw [hab, hh]; simp)) (q := ('`' :: '_' :: rest, (.embeddedUri, uri) :: (.content, c) :: (.markupStart, ['`']) :: [])) (qs := []) (by
        simp [Re.chr, Re.run])
    exact ⟨zs, by rw [Re.run]; exact hz⟩
  have hcontainer : First (.cap .embededUriContainer (.seq (Re.plus true (.cls isWs)) (.seq (.chr '<') (.seq (.cap .embeddedUri contentRe)
      (.chr '>'))))) (gap ++ '<' :: (uri ++ '>' :: '`' :: '_' :: rest)) ((.content, c) :: (.markupStart, ['`']) :: [])
      ('`' :: '_' :: rest, (.embededUriContainer, gap ++ '<' :: (uri ++ ['>'])) :: (.embeddedUri, uri) :: (.content, c) :: (.markupStart, ['`']) :: []) := by
    have e : gap ++ '<' :: (uri ++ '>' :: '`' :: '_' :: rest) = (gap ++ '<' :: (uri ++ ['>'])) ++ '`' :: '_' :: rest := by simp
    rw [e]
    refine First.cap ?_
    rw [← e]
    exact (First.plus hg hgw (by intro x hx; cases hx; decide) _).seq ((First.single_chr '<' _ _).seq huri)
  obtain ⟨zs, hz⟩ := (First.opt hcontainer).seq (tick_first hr _)
  obtain ⟨zs', hcont⟩ := text_run (g := .content) (e := gap ++ '<' :: (uri ++ '>' :: '`' :: '_' :: rest)) h.2.1 h.2.2 [(.markupStart, ['`'])]
    (fun r => phraseEnd.run r.1 r.2) (by
      intro a b cs hab hb
      exact phraseEnd_dead hb (fun hm => h.1 (by rw [hab]; simp [hm])) (fun hm => ha (by rw [hab]; simp [hm])) (marked_suffix h hab hb) cs) hz
  have hin : First (.seq (.cap .content contentRe) phraseEnd) (c ++ (gap ++ '<' :: (uri ++ '>' :: '`' :: '_' :: rest))) [(.markupStart, ['`'])]
      (rest.tail, (.lookahead, rest.take 1) :: (.refType, ['_']) :: (.markupEnd, ['`']) :: (.embededUriContainer, gap ++ '<' :: (uri ++ ['>'])) ::
        (.embeddedUri, uri) :: (.content, c) :: (.markupStart, ['`']) :: []) :=
    ⟨zs', by rw [Re.run]; exact hcont⟩
  have hall : First rePhraseRef ('`' :: (c ++ (gap ++ '<' :: (uri ++ '>' :: '`' :: '_' :: rest)))) []
      (rest.tail, (.lookahead, rest.take 1) :: (.refType, ['_']) :: (.markupEnd, ['`']) :: (.embededUriContainer, gap ++ '<' :: (uri ++ ['>'])) ::
        (.embeddedUri, uri) :: (.content, c) :: (.markupStart, ['`']) :: []) := by
    rw [rePhrase_eq]
    exact (tick_behind _).seq ((First.cap (w := ['`']) (First.single_chr '`' _ _)).seq hin)
  have ew : ('`' :: (c ++ (gap ++ '<' :: (uri ++ '>' :: '`' :: '_' :: rest)))) =
      ('`' :: (c ++ (gap ++ '<' :: (uri ++ '>' :: '`' :: '_' :: rest.take 1)))) ++ rest.tail := by
    cases rest <;> simp
  rw [ew] at hall ⊢
  exact hall.captures

end Rustla
