import Verif.Lemmas.First
/-! # Inline patterns at the start of a word -/
namespace Rustla
open Spec

/-! ## Letters and digits -/

theorem alnum_behind {c : Char} (h : c.isAlphanum = true) : clsLookbehind c = false := by
  simpa using alnum_cases (P := fun c => !clsLookbehind c) (by decide +kernel) h

theorem alnum_uriBehind {c : Char} (h : c.isAlphanum = true) : (isWs c || clsUriLookbehind c) = false := by
  simpa using alnum_cases (P := fun c => !(isWs c || clsUriLookbehind c)) (by decide +kernel) h

/-! ## Texts -/

/-- The second parts of the schemes that may contain any character in the middle. -/
def wildEnds : List Str := [str! "beep", str! "beeps", str! "50r", str! "50s"]

/-- The second part of such a scheme, before a colon at the start of the text, is followed by white space or nothing. -/
def Dry (s : Str) : Prop := ∀ b v, s = b ++ ':' :: v → b ∈ wildEnds → AtEnd v

/-- The characters of a word, possibly with a colon at its end, before white space. -/
structure Solid (v r : Str) : Prop where
  solid : ∀ c ∈ v, isWs c = false
  joined : Joined v
  noAt : '@' ∉ v
  stop : AtEnd r
  dry : ∀ x t, r = x :: t → Dry t

theorem Solid.tail {a : Char} {v r : Str} (h : Solid (a :: v) r) : Solid v r :=
  ⟨fun c hc => h.solid c (by simp [hc]), h.joined.2, fun hc => h.noAt (by simp [hc]), h.stop, h.dry⟩

/-- Every colon is the last character, or does not end a scheme. -/
def Plainly (v : Str) : Prop := ∀ a b, v = a ++ ':' :: b → b = [] ∨ isScheme a = false

theorem Spec.ColonsOk.split {w : Str} (h : ColonsOk w) {a b : Str} (e : w = a ++ ':' :: b) :
    b ≠ [] ∧ isScheme a = false ∧ isScheme a.tail = false ∧ a ∉ wildEnds := by
  obtain ⟨h1, h2, h3, h4⟩ := h a.length (by rw [e]; simp) (by rw [e]; simp)
  rw [e, List.take_left] at h2 h3 h4
  refine ⟨?_, h2, h3, ?_⟩
  · rintro rfl; rw [e] at h1; simp at h1
  · intro hw
    have : ∀ b ∈ wildEnds, ∃ p ∈ dottedSchemes, b = p.2 := by decide
    obtain ⟨p, hp, hb⟩ := this a hw
    exact h4 p hp hb

/-- A solid part of the text lies in the word. -/
theorem solid_split {v r m t : Str} {c : Char} (hr : AtEnd r) (e : v ++ r = m ++ c :: t) (hm : ∀ x ∈ m, isWs x = false)
    (hc : isWs c = false) : ∃ v', v = m ++ c :: v' ∧ t = v' ++ r := by
  rcases List.append_eq_append_iff.mp e with ⟨u, rfl, e2⟩ | ⟨u, rfl, e2⟩
  · exfalso
    cases u with
    | nil =>
      simp only [List.nil_append] at e2
      have := hr c (by rw [e2]; rfl)
      rw [hc] at this; cases this
    | cons y u =>
      have := hr y (by rw [e2]; rfl)
      rw [hm y (by simp)] at this; cases this
  · cases u with
    | nil =>
      exfalso
      simp only [List.nil_append] at e2
      have := hr c (by rw [← e2]; rfl)
      rw [hc] at this; cases this
    | cons y u =>
      simp only [List.cons_append, List.cons.injEq] at e2
      obtain ⟨rfl, rfl⟩ := e2
      exact ⟨u, rfl, rfl⟩

theorem joined_split {a b : Str} (h : Joined (a ++ '_' :: b)) : ∃ d, b.head? = some d ∧ d.isAlphanum = true := by
  induction a with
  | nil => exact h.1 rfl
  | cons c a ih => exact ih h.2

theorem joined_append {a b : Str} (h : Joined a) (hb : Joined b) : Joined (a ++ b) := by
  induction a with
  | nil => exact hb
  | cons c a ih =>
    refine ⟨fun hc => ?_, ih h.2⟩
    obtain ⟨d, hd, hd'⟩ := h.1 hc
    cases a with
    | nil => cases hd
    | cons x a => exact ⟨d, hd, hd'⟩

/-- A word or a word with a colon, before white space or the end of the text. -/
structure WordAt (w k r : Str) : Prop where
  ne : w ++ k ≠ []
  full : ∀ c ∈ w, isWs c = false
  quiet : Quiet w
  mark : k = [] ∨ k = [':']
  stop : AtEnd r
  dry : ∀ x t, r = x :: t → Dry t

theorem WordAt.solid {w k r : Str} (h : WordAt w k r) : Solid (w ++ k) r := by
  have hq := h.quiet
  rcases h.mark with rfl | rfl
  · rw [List.append_nil]
    exact ⟨h.full, hq.joined, hq.noAt, h.stop, h.dry⟩
  · refine ⟨?_, ?_, ?_, h.stop, h.dry⟩
    · intro c hc
      rcases List.mem_append.mp hc with hc | hc
      · exact h.full c hc
      · simp only [List.mem_singleton] at hc; subst hc; decide
    · exact joined_append hq.joined ⟨by decide, trivial⟩
    · intro hc
      rcases List.mem_append.mp hc with hc | hc
      · exact hq.noAt hc
      · simp at hc

theorem WordAt.plainly {w k r : Str} (h : WordAt w k r) : Plainly (w ++ k) ∧ Plainly (w ++ k).tail := by
  have hq := h.quiet.colons
  have both : ∀ a b, w ++ k = a ++ ':' :: b → b = [] ∨ isScheme a = false ∧ isScheme a.tail = false := by
    intro a b e
    rcases h.mark with rfl | rfl
    · rw [List.append_nil] at e
      obtain ⟨_, h2, h3, _⟩ := hq.split e
      exact .inr ⟨h2, h3⟩
    · rcases List.append_eq_append_iff.mp e with ⟨u, rfl, e2⟩ | ⟨u, rfl, e2⟩
      · cases u with
        | nil => exact .inl (by simpa using e2.symm)
        | cons y u => simp at e2
      · cases u with
        | nil => exact .inl (by simpa using e2)
        | cons y u =>
          simp only [List.cons_append, List.cons.injEq] at e2
          obtain ⟨rfl, rfl⟩ := e2
          obtain ⟨_, h2, h3, _⟩ := hq.split rfl
          exact .inr ⟨h2, h3⟩
  refine ⟨fun a b e => (both a b e).imp id (·.1), fun a b e => ?_⟩
  cases hv : w ++ k with
  | nil => rw [hv] at e; simp at e
  | cons x v =>
    rw [hv] at e
    exact (both (x :: a) b (by rw [hv, ← List.cons_append.symm]; exact congrArg (x :: ·) e)).imp id (·.2)

/-! ## Places where markup may start -/

/-- No markup starts here. -/
def Spot (t : Str) : Prop := ∀ a, t.head? = some a → a ∉ ['*', '`', '_', '[', '|'] ∧ (a = ':' → AtEnd t.tail)

theorem spot_end {r : Str} (h : AtEnd r) : Spot r := by
  intro a ha
  have := h a ha
  refine ⟨?_, ?_⟩
  · intro hm
    have : (['*', '`', '_', '[', '|'].all fun c => !isWs c) = true := by decide
    have := List.all_eq_true.mp this a hm
    simp_all
  · rintro rfl
    exact absurd this (by decide)

theorem spot_opening {a : Char} {t : Str} (h : a ∉ opening) : Spot (a :: t) := by
  intro b hb
  cases hb
  refine ⟨fun hm => h ?_, ?_⟩
  · simp only [List.mem_cons, List.not_mem_nil, or_false] at hm
    simp only [opening, List.mem_cons, List.not_mem_nil, or_false]
    tauto
  · rintro rfl; exact absurd (by decide) h

theorem spot_colon {t : Str} (h : AtEnd t) : Spot (':' :: t) := by
  intro b hb
  cases hb
  exact ⟨by decide, fun _ => h⟩

/-- No markup starts at a word. -/
theorem WordAt.spot {w k r : Str} (h : WordAt w k r) : Spot (w ++ k ++ r) := by
  cases w with
  | nil =>
    rcases h.mark with rfl | rfl
    · exact absurd rfl h.ne
    · exact spot_colon h.stop
  | cons a w => exact spot_opening (h.quiet.first a (by simp))

/-- No markup starts behind the first character of a word. -/
theorem WordAt.spot_tail {w k r : Str} (h : WordAt w k r) {a : Char} {t : Str} (e : w ++ k ++ r = a :: t)
    (ha : a.isAlphanum = false) : Spot t := by
  cases w with
  | nil =>
    rcases h.mark with rfl | rfl
    · exact absurd rfl h.ne
    · cases e
      exact spot_end h.stop
  | cons b w =>
    cases e
    cases w with
    | nil =>
      rcases h.mark with rfl | rfl
      · exact spot_end h.stop
      · exact spot_colon h.stop
    | cons c w =>
      refine spot_opening fun hc => ?_
      have := h.quiet.second hc
      rw [ha] at this; cases this

/-- What an optional look-behind leaves. -/
theorem behind_cases {p : Char → Bool} {g : Grp} {s : Str} {cs : Caps} {q : Str × Caps}
    (h : q ∈ (Re.opt (.cap g (.cls p))).run s cs) : q.1 = s ∨ ∃ a, s = a :: q.1 ∧ p a = true := by
  rcases mem_opt.mp h with h | rfl
  · obtain ⟨m, r, _, hr, rfl⟩ := mem_cap.mp h
    obtain ⟨c, t, e, hp, rfl⟩ := mem_cls.mp hr
    exact .inr ⟨c, e, hp⟩
  · exact .inl rfl

/-- A pattern with a look-behind does not match at a word, when what comes after the look-behind matches nowhere where no
markup starts. -/
theorem word_captures {p : Char → Bool} {g : Grp} {x : Re} (hx : ∀ t cs, Spot t → x.run t cs = [])
    (hp : ∀ c, c.isAlphanum = true → p c = false) {w k r : Str} (h : WordAt w k r) :
    (Re.seq (Re.opt (.cap g (.cls p))) x).captures (w ++ k ++ r) = none := by
  rw [Re.captures_none_iff, Re.run, List.flatMap_eq_nil_iff]
  intro q hq
  refine hx _ _ ?_
  rcases behind_cases hq with e | ⟨a, e, ha⟩
  · rw [e]; exact h.spot
  · refine h.spot_tail e ?_
    cases hal : a.isAlphanum with
    | false => rfl
    | true => rw [hp a hal] at ha; cases ha

theorem spot_chr {m : Char} (hm : m ∈ ['*', '`', '_', '[', '|']) {g : Grp} {l : Str} {x : Re} (t : Str) (cs : Caps) (h : Spot t) :
    (Re.seq (.cap g (Re.lit (m :: l))) x).run t cs = [] := by
  refine run_seq_dead (run_cap_dead ?_)
  cases t with
  | nil => cases l <;> simp [Re.lit, Re.chr, Re.run]
  | cons a t =>
    refine run_lit_ne ?_ _
    rintro rfl
    exact (h a rfl).1 hm

/-! ## Classes without white space -/

/-- The code points of white space. -/
def wsNats : List Nat :=
  [9, 10, 11, 12, 13, 0x20, 0x85, 0xA0, 0x1680, 0x2000, 0x2001, 0x2002, 0x2003, 0x2004, 0x2005, 0x2006, 0x2007, 0x2008,
    0x2009, 0x200A, 0x2028, 0x2029, 0x202F, 0x205F, 0x3000]

theorem ws_nats {c : Char} (h : isWs c = true) : c.toNat ∈ wsNats := by
  simp only [isWs, Bool.or_eq_true, Bool.and_eq_true, decide_eq_true_eq, beq_iff_eq] at h
  simp only [wsNats, List.mem_cons, List.not_mem_nil, or_false]
  omega

/-- A class without white space. -/
theorem cls_nonWs {p : Char → Bool} (h : wsNats.all (fun n => !p (Char.ofNat n)) = true) (c : Char) (hc : p c = true) :
    isWs c = false := by
  cases hw : isWs c with
  | false => rfl
  | true =>
    have := List.all_eq_true.mp h _ (ws_nats hw)
    rw [Char.ofNat_toNat, hc] at this
    cases this

/-- White space is not markup. -/
theorem ws_markupFree {w : Str} (h : ∀ c ∈ w, isWs c = true) : markupFree w := by
  intro c hc hm
  have : markupChars.all (fun c => !isWs c) = true := by decide
  have := List.all_eq_true.mp this c hm
  rw [h c hc] at this
  cases this

theorem atEnd_dead {p : Char → Bool} (h : wsNats.all (fun n => !p (Char.ofNat n)) = true) {r : Str} (hr : AtEnd r) (cs : Caps) :
    (Re.cls p).run r cs = [] := by
  cases r with
  | nil => rfl
  | cons a r =>
    have hw := hr a rfl
    cases hp : p a with
    | false => simp [Re.run, hp]
    | true => rw [cls_nonWs h a hp] at hw; cases hw

/-! ## The inline patterns at a word -/

variable {w k r : Str}

theorem word_strong (h : WordAt w k r) : reStrongEmph.captures (w ++ k ++ r) = none :=
  word_captures (spot_chr (m := '*') (by decide)) (fun _ => alnum_behind) h
theorem word_emph (h : WordAt w k r) : reEmph.captures (w ++ k ++ r) = none :=
  word_captures (spot_chr (m := '*') (l := []) (by decide)) (fun _ => alnum_behind) h
theorem word_literal (h : WordAt w k r) : reLiteral.captures (w ++ k ++ r) = none :=
  word_captures (spot_chr (m := '`') (by decide)) (fun _ => alnum_behind) h
theorem word_target (h : WordAt w k r) : reInlineTarget.captures (w ++ k ++ r) = none :=
  word_captures (spot_chr (m := '_') (by decide)) (fun _ => alnum_behind) h
theorem word_phrase (h : WordAt w k r) : rePhraseRef.captures (w ++ k ++ r) = none :=
  word_captures (spot_chr (m := '`') (l := []) (by decide)) (fun _ => alnum_behind) h
theorem word_footnote (h : WordAt w k r) : reFootnoteRef.captures (w ++ k ++ r) = none :=
  word_captures (spot_chr (m := '[') (l := []) (by decide)) (fun _ => alnum_behind) h
theorem word_citation (h : WordAt w k r) : reCitationRef.captures (w ++ k ++ r) = none :=
  word_captures (spot_chr (m := '[') (l := []) (by decide)) (fun _ => alnum_behind) h
theorem word_subst (h : WordAt w k r) : reSubstitutionRef.captures (w ++ k ++ r) = none :=
  word_captures (spot_chr (m := '|') (l := []) (by decide)) (fun _ => alnum_behind) h

/-- The pattern for the name of a role. -/
abbrev roleRe : Re := .alt (.cls nonWs) (.seq (.cls nonWs) (.seq (.star false (.cls clsNotNewline)) (.cls nonWs)))

/-- The pattern for the name of a role between colons. -/
abbrev roleMarkerRe (g g' : Grp) : Re := .cap g (.seq (.chr ':') (.seq (.cap g' roleRe) (.chr ':')))

/-- No role starts at a colon before white space. -/
theorem marker_dead {g g' : Grp} {s : Str} (h : ∀ t, s = ':' :: t → AtEnd t) (cs : Caps) : (roleMarkerRe g g').run s cs = [] := by
  refine run_cap_dead ?_
  rw [Re.run, List.flatMap_eq_nil_iff]
  intro q hq
  obtain ⟨t, e, rfl⟩ := mem_chr.mp hq
  have hd : ∀ cs, (Re.cls nonWs).run t cs = [] := fun cs => atEnd_dead (by decide) (h t e) cs
  exact run_seq_dead (run_cap_dead (run_alt_dead (hd _) (run_seq_dead (hd _))))

theorem word_interpreted (h : WordAt w k r) : reInterpretedText.captures (w ++ k ++ r) = none := by
  refine word_captures ?_ (fun _ => alnum_behind) h
  intro t cs ht
  rw [Re.run, List.flatMap_eq_nil_iff]
  intro q hq
  rcases mem_opt.mp hq with hq | rfl
  · rw [marker_dead (fun t' e => (ht ':' (by rw [e]; rfl)).2 rfl |> fun h => by rw [e] at h; exact h)] at hq
    cases hq
  · exact spot_chr (m := '`') (l := []) (by decide) t cs ht

theorem word_simple (h : WordAt w k r) : reSimpleRef.captures (w ++ k ++ r) = none := by
  have key : ∀ (v : Str) cs, Solid v r → ∀ g g' g'', (Re.seq (.cap g (.seq (Re.plus true (.cls
      clsAlnum)) (.star true (.seq (.cls clsSimpleRefSep) (Re.plus true (.cls clsAlnum)))))) (.seq (.cap
      g' (.seq (.chr '_') (Re.opt (.chr '_')))) (.cap g'' (.alt (.cls isWs) (.alt (.cls
      clsLookahead) .eos))))).run (v ++ r) cs = [] := by
    intro v cs hv g g' g''
    rw [List.eq_nil_iff_forall_not_mem]
    intro q hq
    obtain ⟨q1, h1, h2⟩ := mem_seq.mp hq
    obtain ⟨q2, h3, h4⟩ := mem_seq.mp h2
    obtain ⟨m, q1', e1, h1', rfl⟩ := mem_cap.mp h1
    obtain ⟨m', q2', e2, h3', rfl⟩ := mem_cap.mp h3
    obtain ⟨q3, h5, h6⟩ := mem_seq.mp h3'
    obtain ⟨t, e3, rfl⟩ := mem_chr.mp h5
    have hal : Consumes (fun c => isWs c = false) (.cls clsAlnum) := .cls (cls_nonWs (by decide))
    have hpl : Consumes (fun c => isWs c = false) (Re.plus true (.cls clsAlnum)) := .seq hal (.star hal)
    obtain ⟨m1, e4, hm1⟩ := Consumes.seq hpl (Consumes.star (g := true) (.seq (.cls (p := clsSimpleRefSep) (cls_nonWs (by decide))) hpl)) _ _ _ h1'
    simp only at e3
    rw [e3] at e4
    obtain ⟨v', ev, et⟩ := solid_split hv.stop e4 hm1 (by decide)
    have := hv.joined
    rw [ev] at this
    obtain ⟨d, hd, hda⟩ := joined_split this
    obtain ⟨v'', rfl⟩ : ∃ v'', v' = d :: v'' := by
      cases v' with
      | nil => cases hd
      | cons x v'' => cases hd; exact ⟨v'', rfl⟩
    have hdu : d ≠ '_' := by rintro rfl; revert hda; decide
    have ht : q2'.1 = d :: (v'' ++ r) := by
      rcases mem_opt.mp h6 with h6 | rfl
      · obtain ⟨t', e', _⟩ := mem_chr.mp h6
        rw [show ({ fst := t, snd := q1'.2 : Str × Caps }).1 = t from rfl, et] at e'
        simp only [List.cons_append, List.cons.injEq] at e'
        exact absurd e'.1 hdu
      · exact et
    obtain ⟨m2, q4, e5, h7, rfl⟩ := mem_cap.mp h4
    simp only [ht] at h7
    rcases mem_alt.mp h7 with h7 | h7
    · obtain ⟨c, t', e', hc, _⟩ := mem_cls.mp h7
      cases e'
      rw [alnum_not_ws hda] at hc; cases hc
    · rcases mem_alt.mp h7 with h7 | h7
      · obtain ⟨c, t', e', hc, _⟩ := mem_cls.mp h7
        cases e'
        rw [alnum_ahead hda] at hc; cases hc
      · exact absurd (mem_eos.mp h7).1 (by simp)
  rw [Re.captures_none_iff, reSimpleRef, Re.run, List.flatMap_eq_nil_iff]
  intro q hq
  rcases behind_cases hq with e | ⟨a, e, _⟩
  · rw [e]; exact key _ _ h.solid _ _ _
  · have hs := h.solid
    cases hv : w ++ k with
    | nil => exact absurd hv h.ne
    | cons b v =>
      rw [hv] at e hs
      simp only [List.cons_append, List.cons.injEq] at e
      rw [← e.2]
      exact key _ _ hs.tail _ _ _

/-! ## Addresses -/

/-- A scheme: letters and digits, possibly with one other character among them. -/
def SchemeText (u : Str) : Prop :=
  (u ≠ [] ∧ ∀ c ∈ u, c.isAlphanum = true ∨ c = '-') ∨
    ∃ a x b, u = a ++ x :: b ∧ (∀ c ∈ a, c.isAlphanum = true) ∧ b ∈ wildEnds

/-- What the pattern matches is a scheme. -/
def Schemes (r : Re) : Prop := ∀ s cs q, q ∈ r.run s cs → ∃ u, s = u ++ q.1 ∧ SchemeText u ∧ isScheme u = true

theorem schemes_lit {l : Str} (h : (!l.isEmpty && l.all fun c => c.isAlphanum || c == '-') = true) (hs : isScheme l = true) : Schemes (Re.lit l) := by
  intro s cs q hq
  simp only [Bool.and_eq_true, Bool.not_eq_true', List.isEmpty_eq_false_iff, List.all_eq_true, Bool.or_eq_true, beq_iff_eq] at h
  exact ⟨l, (mem_lit.mp hq).1, .inl h, hs⟩

theorem schemes_wild {l l' : Str} {p : Char → Bool} (h : l.all Char.isAlphanum = true) (h' : l' ∈ wildEnds) (hs : (l, l') ∈ dottedSchemes) :
    Schemes (.seq (Re.lit l) (.seq (.cls p) (Re.lit l'))) := by
  intro s cs q hq
  obtain ⟨q1, h1, h2⟩ := mem_seq.mp hq
  obtain ⟨q2, h3, h4⟩ := mem_seq.mp h2
  obtain ⟨x, t, e, _, rfl⟩ := mem_cls.mp h3
  refine ⟨l ++ x :: l', ?_, .inr ⟨l, x, l', rfl, List.all_eq_true.mp h, h'⟩, ?_⟩
  rotate_left
  · have : (dottedSchemes.any fun p => (l ++ x :: l').take p.1.length == p.1 && (l ++ x :: l').drop (p.1.length + 1) == p.2) = true := by
      rw [List.any_eq_true]
      refine ⟨(l, l'), hs, ?_⟩
      have : (l ++ x :: l').drop (l.length + 1) = l' := by rw [List.drop_append]; simp
      simp [this]
    simp only [isScheme, this, Bool.or_true, Bool.true_or]
  have e4 : t = l' ++ q.1 := (mem_lit.mp h4).1
  rw [(mem_lit.mp h1).1, e, e4]
  simp

theorem schemes_many {l : Str} {a : Char} (h : (!l.isEmpty && l.all Char.isAlphanum) = true) (ha : a.isAlphanum = true)
    (hs : ∀ n, isScheme (l ++ List.replicate (n + 1) a) = true) : Schemes (.seq (Re.lit l) (Re.plus true (Re.plus true (.chr a)))) := by
  intro s cs q hq
  obtain ⟨q1, h1, h2⟩ := mem_seq.mp hq
  have hc : Consumes (fun c => c.isAlphanum = true) (.chr a) := .chr ha
  have hp : Consumes (fun c => c.isAlphanum = true) (Re.plus true (.chr a)) := .seq hc (.star hc)
  obtain ⟨m, e, hm⟩ := Consumes.seq hp (Consumes.star (g := true) hp) _ _ _ h2
  have hrep : ∃ n, m = List.replicate (n + 1) a := by
    have hc' : Consumes (fun c => c = a) (.chr a) := .chr rfl
    have hp' : Consumes (fun c => c = a) (Re.plus true (.chr a)) := .seq hc' (.star hc')
    obtain ⟨m', e', hm'⟩ := Consumes.seq hp' (Consumes.star (g := true) hp') _ _ _ h2
    obtain rfl : m' = m := List.append_cancel_right (e' ▸ e : m' ++ q.1 = m ++ q.1)
    cases m' with
    | nil =>
      exfalso
      obtain ⟨q3, g1, g2⟩ := mem_seq.mp h2
      obtain ⟨q4, g3, g4⟩ := mem_seq.mp g1
      obtain ⟨t, g5, rfl⟩ := mem_chr.mp g3
      obtain ⟨x1, f1, _⟩ := Consumes.star (g := true) hc' _ _ _ g4
      obtain ⟨x2, f2, _⟩ := Consumes.star (g := true) hp' _ _ _ g2
      have : q1.1 = a :: (x1 ++ (x2 ++ q.1)) := by rw [g5]; simp only at f1; rw [f1, f2]
      rw [this] at e'
      have := congrArg List.length e'
      simp at this
      omega
    | cons c m' => exact ⟨m'.length, List.eq_replicate_iff.mpr ⟨by simp, hm'⟩⟩
  simp only [Bool.and_eq_true, Bool.not_eq_true', List.isEmpty_eq_false_iff] at h
  refine ⟨l ++ m, by rw [(mem_lit.mp h1).1, e]; simp, .inl ⟨by simp [h.1], ?_⟩, by obtain ⟨n, rfl⟩ := hrep; exact hs n⟩
  intro c hc
  rcases List.mem_append.mp hc with hc | hc
  · exact .inl (List.all_eq_true.mp h.2 c hc)
  · exact .inl (hm c hc)

theorem schemes_alts {l : List Re} (hne : l ≠ []) (h : ∀ r ∈ l, Schemes r) : Schemes (Re.alts l) := by
  induction l with
  | nil => exact absurd rfl hne
  | cons r l ih =>
    cases l with
    | nil => exact h r (by simp)
    | cons r' l =>
      intro s cs q hq
      rcases mem_alt.mp hq with hq | hq
      · exact h r (by simp) _ _ _ hq
      · exact ih (by simp) (fun r hr => h r (by simp [hr])) _ _ _ hq

/-- A scheme at a word is not followed by an address. -/
theorem scheme_end {v r u t : Str} (h : Solid v r) (hp : Plainly v) (e : v ++ r = u ++ ':' :: t) (hu : SchemeText u) (hs : isScheme u = true) :
    AtEnd t := by
  have inside : (∀ c ∈ u, isWs c = false) → AtEnd t := by
    intro hw
    obtain ⟨v', ev, et⟩ := solid_split h.stop e hw (by decide)
    rcases hp _ _ ev with hnil | hno
    · rw [et, hnil]
      exact h.stop
    · rw [hs] at hno; cases hno
  rcases hu with ⟨_, hu⟩ | ⟨a, x, b, rfl, ha, hb⟩
  · refine inside fun c hc => ?_
    rcases hu c hc with hc | rfl
    · exact alnum_not_ws hc
    · decide
  · have hbb : ∀ c ∈ b, c.isAlphanum = true := by
      have : ∀ b ∈ wildEnds, ∀ c ∈ b, c.isAlphanum = true := by decide
      exact this b hb
    cases hx : isWs x with
    | false =>
      refine inside fun c hc => ?_
      simp only [List.mem_append, List.mem_cons] at hc
      rcases hc with hc | rfl | hc
      · exact alnum_not_ws (ha c hc)
      · exact hx
      · exact alnum_not_ws (hbb c hc)
    | true =>
      rw [List.append_assoc, List.cons_append] at e
      have hav : v = a ∧ r = x :: (b ++ ':' :: t) := by
        rcases List.append_eq_append_iff.mp e with ⟨m, rfl, e2⟩ | ⟨m, rfl, e2⟩
        · cases m with
          | nil => exact ⟨by simp, by simpa using e2⟩
          | cons y m =>
            have := h.stop y (by rw [e2]; rfl)
            rw [alnum_not_ws (ha y (by simp))] at this; cases this
        · cases m with
          | nil => exact ⟨by simp, by simpa using e2.symm⟩
          | cons y m =>
            simp only [List.cons_append, List.cons.injEq] at e2
            have := h.solid y (by simp)
            rw [← e2.1, hx] at this; cases this
      exact h.dry _ _ hav.2 b t rfl hb

theorem word_uri (h : WordAt w k r) : reUri.captures (w ++ k ++ r) = none := by
  have key : ∀ (v : Str) cs, Solid v r → Plainly v → ∀ (S R : Re) (g1 g2 g3 g4 g5 : Grp) (M : Re), Schemes S →
      (∀ t cs, AtEnd t → R.run t cs = []) →
      (Re.seq (.cap g1 (.alt (.cap g2 (.seq (.seq (.cap g3 S) (.chr ':')) R)) (.cap g4 (.seq (Re.plus true (.cls clsMailChar)) (.seq (.star true (.seq
        (.chr '.') (Re.plus true (.cls clsMailChar2)))) (.seq (.chr '@') M)))))) (.cap g5 (.alt (.cls
        isWs) (.alt (.cls clsUriLookahead) .eos)))).run (v ++ r) cs = [] := by
    intro v cs hv hpl S R g1 g2 g3 g4 g5 M hS hR
    refine run_seq_dead (run_cap_dead (run_alt_dead (run_cap_dead ?_) (run_cap_dead ?_)))
    · rw [Re.run, List.flatMap_eq_nil_iff]
      intro q hq
      obtain ⟨q1, h1, h2⟩ := mem_seq.mp hq
      obtain ⟨t, e, rfl⟩ := mem_chr.mp h2
      obtain ⟨m, q2, e1, h3, rfl⟩ := mem_cap.mp h1
      obtain ⟨u, e2, hu, hsc⟩ := hS _ _ _ h3
      simp only at e
      rw [e] at e2
      exact hR _ _ (scheme_end hv hpl e2 hu hsc)
    · rw [Re.run, List.flatMap_eq_nil_iff]
      intro q hq
      rw [List.eq_nil_iff_forall_not_mem]
      intro q' hq'
      obtain ⟨q1, h1, h2⟩ := mem_seq.mp hq'
      obtain ⟨q2, h3, _⟩ := mem_seq.mp h2
      obtain ⟨t, e, rfl⟩ := mem_chr.mp h3
      have hp : ∀ {p : Char → Bool}, wsNats.all (fun n => !p (Char.ofNat n)) = true →
          Consumes (fun c => isWs c = false) (Re.plus true (.cls p)) := fun hp => .seq (.cls (cls_nonWs hp)) (.star (.cls (cls_nonWs hp)))
      obtain ⟨m, e1, hm⟩ := hp (p := clsMailChar) (by decide) _ _ _ hq
      obtain ⟨m', e2, hm'⟩ := Consumes.star (g := true) (Consumes.seq (.chr (a := '.') (P := fun c => isWs c = false) (by decide))
        (hp (p := clsMailChar2) (by decide))) _ _ _ h1
      rw [e2, e, ← List.append_assoc] at e1
      obtain ⟨v', ev, _⟩ := solid_split hv.stop e1 (by
        intro x hx
        exact (List.mem_append.mp hx).elim (hm x) (hm' x)) (by decide)
      exact hv.noAt (by rw [ev]; simp)
  have hall : ∀ (v : Str) cs, Solid v r → Plainly v ∧ Plainly v.tail → ∀ q ∈ (Re.opt (.cap .lookbehind (.alt (.cls isWs) (.cls clsUriLookbehind)))).run (v ++ r) cs,
      ∃ v', Solid v' r ∧ Plainly v' ∧ (v ≠ [] → q.1 = v' ++ r) := by
    intro v cs hv hpl q hq
    rcases mem_opt.mp hq with hq | rfl
    · obtain ⟨m, q1, _, h1, rfl⟩ := mem_cap.mp hq
      have : ∃ a, v ++ r = a :: q1.1 := by
        rcases mem_alt.mp h1 with h1 | h1 <;>
        · obtain ⟨c, t, e, _, rfl⟩ := mem_cls.mp h1
          exact ⟨c, e⟩
      obtain ⟨a, e⟩ := this
      cases v with
      | nil => exact ⟨[], hv, hpl.1, fun hne => absurd rfl hne⟩
      | cons b v =>
        simp only [List.cons_append, List.cons.injEq] at e
        exact ⟨v, hv.tail, hpl.2, fun _ => e.2.symm⟩
    · exact ⟨v, hv, hpl.1, fun _ => rfl⟩
  rw [Re.captures_none_iff, reUri, Re.run, List.flatMap_eq_nil_iff]
  intro q hq
  obtain ⟨v', hv', hpl', e⟩ := hall _ _ h.solid h.plainly q hq
  rw [e h.ne]
  refine key _ _ hv' hpl' _ _ _ _ _ _ _ _ ?_ ?_
  · refine schemes_alts (by simp) ?_
    simp only [List.forall_mem_cons]
    repeat' apply And.intro
    all_goals first
      | exact schemes_lit (by decide) (by decide +kernel)
      | exact schemes_wild (by decide) (by decide) (by decide)
      | exact schemes_many (by decide) (by decide) fun n => by
          simp [isScheme, List.replicate_succ]
      | (intro r hr; cases hr)
  · intro t cs ht
    have hc : ∀ {p : Char → Bool} {t : Str} (cs : Caps), AtEnd t → wsNats.all (fun n => !p (Char.ofNat n)) = true → (Re.cls p).run t cs = [] :=
      fun cs ht h => atEnd_dead h ht cs
    have hk : ∀ {c : Char} {t : Str} (cs : Caps), AtEnd t → isWs c = false → (Re.chr c).run t cs = [] := by
      intro c t cs ht hc
      cases t with
      | nil => rfl
      | cons a t =>
        refine run_chr_ne ?_ _
        rintro rfl
        have := ht a rfl
        rw [hc] at this; cases this
    have opt1 : ∀ {a : Re} {t : Str} {cs : Caps}, a.run t cs = [] → (Re.opt a).run t cs = [(t, cs)] := by
      intro a t cs h
      simp [Re.opt, Re.run, h]
    have star1 : ∀ {a : Re} {t : Str} {cs : Caps}, a.run t cs = [] → (Re.star true a).run t cs = [(t, cs)] := by
      intro a t cs h
      rw [Re.run]
      cases t with
      | nil => rfl
      | cons x t => simp [starRun, h]
    have seq1 : ∀ {a b : Re} {t : Str} {cs : Caps}, a.run t cs = [(t, cs)] → (Re.seq a b).run t cs = b.run t cs := by
      intro a b t cs h
      rw [Re.run, h, List.flatMap_singleton]
    have plus0 : ∀ {p : Char → Bool} {t : Str} {cs : Caps}, (Re.cls p).run t cs = [] → (Re.plus true (.cls p)).run t cs = [] := by
      intro p t cs h
      exact run_seq_dead h
    have hd : ∀ {p : Char → Bool} (cs : Caps), wsNats.all (fun n => !p (Char.ofNat n)) = true → (Re.cls p).run t cs = [] := fun cs h => hc cs ht h
    have hkc : ∀ {c : Char} (cs : Caps), isWs c = false → (Re.chr c).run t cs = [] := fun cs h => hk cs ht h
    rw [seq1 (opt1 (run_cap_dead ?_))]
    · rw [Re.run, List.flatMap_eq_nil_iff]
      intro q hq
      obtain ⟨m, q1, _, h1, rfl⟩ := mem_cap.mp hq
      rw [seq1 (opt1 (hkc _ (by decide))), seq1 (star1 (hd _ (by decide))),
        seq1 (star1 (run_seq_dead (hkc _ (by decide)))), opt1 (hkc _ (by decide))] at h1
      simp only [List.mem_singleton] at h1
      subst h1
      exact run_seq_dead (hd _ (by decide))
    · rw [seq1 (opt1 (run_cap_dead (run_seq_dead (hkc _ (by decide))))),
        seq1 (opt1 (run_seq_dead (run_cap_dead (run_seq_dead (plus0 (hd _ (by decide)))))))]
      refine run_seq_dead (run_cap_dead (run_alt_dead (run_seq_dead (plus0 (hd _ (by decide)))) ?_))
      refine run_seq_dead ?_
      simp only [Re.rep]
      exact run_seq_dead (hd _ (by decide))

/-- The step at a word. -/
theorem word_step (d : Option DocTree) (h : WordAt w k r) :
    matchInlineStr d (w ++ k ++ r) = .ok (some ([.Text (escapeText (w ++ k))], (w ++ k).length, d)) := by
  have hs := h.solid
  have htw : (w ++ k ++ r).takeWhile nonWs = w ++ k :=
    (takeWhile_run (p := nonWs) (fun c hc => by simp [nonWs, hs.solid c hc]) (fun c hc => by simp [nonWs, h.stop c hc])).1
  obtain ⟨c, s, e⟩ : ∃ c s, w ++ k ++ r = c :: s := by
    cases e : w ++ k with
    | nil => exact absurd e h.ne
    | cons c s => exact ⟨c, s ++ r, rfl⟩
  have hc : isWs c = false := by
    cases e' : w ++ k with
    | nil => exact absurd e' h.ne
    | cons c' s' =>
      rw [e'] at e hs
      cases e
      exact hs.solid _ (by simp)
  have h1 := word_strong h
  have h2 := word_emph h
  have h3 := word_literal h
  have h4 := word_target h
  have h5 := word_phrase h
  have h6 := word_interpreted h
  have h7 := word_footnote h
  have h8 := word_citation h
  have h9 := word_simple h
  have h10 := word_subst h
  have h11 := word_uri h
  rw [e] at h1 h2 h3 h4 h5 h6 h7 h8 h9 h10 h11 htw ⊢
  obtain ⟨m, hm, hwm⟩ := text_captures (s := s) hc
  simp only [matchInlineStr, inlineTransitions, firstInline, no_ws_captures hc, h1, h2, h3, h4, h5, h6, h7, h8, h9, h10, h11,
    hm, inlineText, bind, Except.bind, pure, Except.pure, List.isEmpty_cons, Bool.false_eq_true, if_false, hwm, htw]

end Rustla
