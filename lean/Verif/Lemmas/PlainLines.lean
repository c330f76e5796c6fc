import Verif.Spec.Plain
import Verif.Lemmas.Regex
import Verif.Lemmas.Strings
import Verif.Model.Parser
/-! # Plain lines and blank lines in the transition tables -/
namespace Rustla
open Spec

/-- A line that does not start with white space has no indentation to match. -/
theorem run_indent {g : Grp} {c : Char} {t : Str} (h : isWs c = false) (cs : Caps) :
    (Re.cap g (.star true (.cls isWs))).run (c :: t) cs = [(c :: t, (g, []) :: cs)] := by
  rw [Re.run, run_star_cls_none (by intro x hx; cases hx; exact h)]
  simp

theorem run_seq_indent {g : Grp} {r : Re} {c : Char} {t : Str} (h : isWs c = false) (cs : Caps) :
    (Re.seq (.cap g (.star true (.cls isWs))) r).run (c :: t) cs = r.run (c :: t) ((g, []) :: cs) := by
  rw [Re.run, run_indent h]
  simp

theorem run_chr_ne {a c : Char} {t : Str} (h : c ≠ a) (cs : Caps) : (Re.chr a).run (c :: t) cs = [] := by
  simp [Re.chr, Re.run, h]

theorem run_seq_dead {a b : Re} {s : Str} {cs : Caps} (h : a.run s cs = []) : (Re.seq a b).run s cs = [] := by
  rw [Re.run, h]; rfl

theorem run_alt_dead {a b : Re} {s : Str} {cs : Caps} (h : a.run s cs = []) (h' : b.run s cs = []) :
    (Re.alt a b).run s cs = [] := by
  rw [Re.run, h, h']; rfl

theorem run_cap_dead {g : Grp} {a : Re} {s : Str} {cs : Caps} (h : a.run s cs = []) : (Re.cap g a).run s cs = [] := by
  rw [Re.run, h]; rfl

theorem isDigit_cls {c : Char} (h : clsDigit c = true) : c.isDigit = true := by
  simpa [clsDigit, Char.isDigit, Char.le_def] using h

theorem isAlpha_lower {c : Char} (h : clsLower c = true) : c.isAlpha = true := by
  have : c.isLower = true := by simpa [clsLower, Char.isLower, Char.le_def] using h
  simp [Char.isAlpha, this]

theorem isAlpha_upper {c : Char} (h : clsUpper c = true) : c.isAlpha = true := by
  have : c.isUpper = true := by simpa [clsUpper, Char.isUpper, Char.le_def] using h
  simp [Char.isAlpha, this]

theorem mem_run_plus {p : Char → Bool} {s : Str} {cs : Caps} {q : Str × Caps}
    (h : q ∈ (Re.plus true (.cls p)).run s cs) : ∃ e, e ≠ [] ∧ (∀ c ∈ e, p c = true) ∧ s = e ++ q.1 := by
  cases s with
  | nil => simp [Re.plus, Re.run] at h
  | cons c s =>
    simp only [Re.plus, Re.run] at h
    split at h
    · rename_i hc
      simp only [List.flatMap_cons, List.flatMap_nil, List.append_nil] at h
      have h' : q ∈ (Re.star true (.cls p)).run s cs := h
      rw [run_star_cls] at h'
      simp only [List.mem_map, List.mem_reverse, List.mem_range] at h'
      obtain ⟨k, hk, rfl⟩ := h'
      refine ⟨c :: s.take k, by simp, ?_, by simp⟩
      intro x hx
      rcases List.mem_cons.mp hx with rfl | hx
      · exact hc
      · have : s.take k = (s.takeWhile p).take k := by
          conv => lhs; rw [← List.takeWhile_append_dropWhile (p := p) (l := s)]
          rw [List.take_append_of_le_length (by omega)]
        rw [this] at hx
        exact mem_takeWhile _ _ _ (List.mem_of_mem_take hx)
    · simp at h

theorem mem_run_cls {p : Char → Bool} {s : Str} {cs : Caps} {q : Str × Caps}
    (h : q ∈ (Re.cls p).run s cs) : ∃ c, p c = true ∧ s = c :: q.1 := by
  cases s with
  | nil => simp [Re.run] at h
  | cons c s =>
    simp only [Re.run] at h
    split at h
    · simp at h; subst h; exact ⟨c, by assumption, rfl⟩
    · simp at h

/-! ## Patterns that consume only certain characters -/

/-- The pattern consumes only characters with the property `P`. -/
def Consumes (P : Char → Prop) (r : Re) : Prop := ∀ s cs q, q ∈ r.run s cs → ∃ m, s = m ++ q.1 ∧ ∀ x ∈ m, P x

theorem Consumes.cls {P : Char → Prop} {p : Char → Bool} (h : ∀ c, p c = true → P c) : Consumes P (.cls p) := by
  intro s cs q hq
  obtain ⟨c, h1, h2⟩ := mem_run_cls hq
  exact ⟨[c], h2, by simpa using h c h1⟩

theorem Consumes.chr {P : Char → Prop} {a : Char} (h : P a) : Consumes P (.chr a) :=
  .cls fun c hc => by rw [beq_iff_eq] at hc; exact hc ▸ h

theorem Consumes.seq {P : Char → Prop} {a b : Re} (ha : Consumes P a) (hb : Consumes P b) : Consumes P (.seq a b) := by
  intro s cs q hq
  obtain ⟨r, hr, hq⟩ := List.mem_flatMap.mp hq
  obtain ⟨m, e, h⟩ := ha _ _ _ hr
  obtain ⟨m', e', h'⟩ := hb _ _ _ hq
  refine ⟨m ++ m', by rw [e, e']; simp, fun x hx => ?_⟩
  rcases List.mem_append.mp hx with hx | hx
  · exact h x hx
  · exact h' x hx

theorem Consumes.alt {P : Char → Prop} {a b : Re} (ha : Consumes P a) (hb : Consumes P b) : Consumes P (.alt a b) := by
  intro s cs q hq
  rcases List.mem_append.mp hq with h | h
  · exact ha _ _ _ h
  · exact hb _ _ _ h

theorem Consumes.cap {P : Char → Prop} {g : Grp} {a : Re} (h : Consumes P a) : Consumes P (.cap g a) := by
  intro s cs q hq
  simp only [Re.run, List.mem_map] at hq
  obtain ⟨q', hq', rfl⟩ := hq
  exact h s cs q' hq'

theorem Consumes.eos {P : Char → Prop} : Consumes P .eos := by
  intro s cs q hq
  simp only [Re.run] at hq
  split at hq
  · simp only [List.mem_singleton] at hq; subst hq; exact ⟨[], rfl, by simp⟩
  · cases hq

theorem Consumes.star {P : Char → Prop} {g : Bool} {r : Re} (h : Consumes P r) : Consumes P (.star g r) := by
  intro s cs q hq
  have key : ∀ n s cs q, q ∈ starRun g r.run n s cs → ∃ m, s = m ++ q.1 ∧ ∀ x ∈ m, P x := by
    intro n
    induction n with
    | zero => intro s cs q hq; simp [starRun] at hq; subst hq; exact ⟨[], rfl, by simp⟩
    | succ n ih =>
      intro s cs q hq
      have : q = (s, cs) ∨ q ∈ (r.run s cs).flatMap fun q => if q.1.length < s.length then starRun g r.run n q.1 q.2 else [] := by
        cases g
        · simpa [starRun] using hq
        · simp only [starRun, if_true, List.mem_append, List.mem_singleton] at hq
          rcases hq with h | h
          · exact .inr h
          · exact .inl h
      rcases this with rfl | hq
      · exact ⟨[], rfl, by simp⟩
      · obtain ⟨q', hq', hq⟩ := List.mem_flatMap.mp hq
        split at hq
        · obtain ⟨m, e, hm⟩ := h _ _ _ hq'
          obtain ⟨m', e', hm'⟩ := ih _ _ _ hq
          refine ⟨m ++ m', by rw [e, e']; simp, fun x hx => ?_⟩
          rcases List.mem_append.mp hx with hx | hx
          · exact hm x hx
          · exact hm' x hx
        · cases hq
  exact key _ _ _ _ hq

/-- What an enumerator consists of, without the punctuation. -/
theorem enum_body {ga gb gc gd ge gf : Grp} {s : Str} {cs : Caps} {q : Str × Caps}
    (h : q ∈ (Re.alts [.cap ga (Re.plus true (.cls clsDigit)), .cap gb (Re.plus true (.cls clsLowerRoman)),
      .cap gc (Re.plus true (.cls clsUpperRoman)), .cap gd (.cls clsLower), .cap ge (.cls clsUpper),
      .cap gf (.chr '#')]).run s cs) : ∃ e, EnumeratorText e ∧ s = e ++ q.1 := by
  simp only [Re.alts, Re.run, List.mem_append, List.mem_map] at h
  rcases h with ⟨q', h, rfl⟩ | ⟨q', h, rfl⟩ | ⟨q', h, rfl⟩ | ⟨q', h, rfl⟩ | ⟨q', h, rfl⟩ | ⟨q', h, rfl⟩
  · obtain ⟨e, h1, h2, h3⟩ := mem_run_plus h
    exact ⟨e, .inr ⟨h1, .inl fun c hc => isDigit_cls (h2 c hc)⟩, h3⟩
  · obtain ⟨e, h1, h2, h3⟩ := mem_run_plus h
    refine ⟨e, .inr ⟨h1, .inr (.inl fun c hc => ?_)⟩, h3⟩
    have := h2 c hc
    simp only [clsLowerRoman, Bool.or_eq_true, beq_iff_eq] at this
    simp only [List.mem_cons, List.not_mem_nil, or_false]
    rcases this with (((((h | h) | h) | h) | h) | h) | h <;> simp [h]
  · obtain ⟨e, h1, h2, h3⟩ := mem_run_plus h
    refine ⟨e, .inr ⟨h1, .inr (.inr (.inl fun c hc => ?_))⟩, h3⟩
    have := h2 c hc
    simp only [clsUpperRoman, Bool.or_eq_true, beq_iff_eq] at this
    simp only [List.mem_cons, List.not_mem_nil, or_false]
    rcases this with (((((h | h) | h) | h) | h) | h) | h <;> simp [h]
  · obtain ⟨c, h1, h2⟩ := mem_run_cls h
    exact ⟨[c], .inr ⟨by simp, .inr (.inr (.inr ⟨rfl, by simpa using isAlpha_lower h1⟩))⟩, h2⟩
  · obtain ⟨c, h1, h2⟩ := mem_run_cls h
    exact ⟨[c], .inr ⟨by simp, .inr (.inr (.inr ⟨rfl, by simpa using isAlpha_upper h1⟩))⟩, h2⟩
  · obtain ⟨c, h1, h2⟩ := mem_run_cls h
    exact ⟨[c], .inl (by simpa using h1), h2⟩

theorem gap_plus {s : Str} {cs : Caps} {q : Str × Caps} (h : q ∈ (Re.plus true (.chr ' ')).run s cs) : Gap s := by
  obtain ⟨e, h1, h2, h3⟩ := mem_run_plus h
  right
  cases e with
  | nil => exact absurd rfl h1
  | cons a e => rw [h3]; simpa using h2 a (by simp)

theorem gap_end {s : Str} {cs : Caps} {q : Str × Caps} (h : q ∈ (Re.alt (Re.plus true (.chr ' ')) .eos).run s cs) : Gap s := by
  rcases List.mem_append.mp h with h | h
  · exact gap_plus h
  · left
    cases s with
    | nil => rfl
    | cons c s => simp [Re.run] at h

theorem after_marker {g : Grp} {s : Str} {cs : Caps} {q : Str × Caps}
    (h : q ∈ (Re.cap g (.alt (Re.plus true (.chr ' ')) .eos)).run s cs) : Gap s := by
  simp only [Re.run, List.mem_map] at h
  obtain ⟨q', h, rfl⟩ := h
  exact gap_end h

theorem run_seq3 {a b c : Re} {s : Str} {cs : Caps} {q : Str × Caps} (h : q ∈ (Re.seq (.seq a b) c).run s cs) :
    ∃ q1 q2, q1 ∈ a.run s cs ∧ q2 ∈ b.run q1.1 q1.2 ∧ q ∈ c.run q2.1 q2.2 := by
  simp only [Re.run, List.mem_flatMap] at h
  obtain ⟨q2, ⟨q1, h1, h2⟩, h3⟩ := h
  exact ⟨q1, q2, h1, h2, h3⟩

theorem run_seq_alt {a b c : Re} {s : Str} {cs : Caps} {q : Str × Caps} (h : q ∈ (Re.seq (.alt a b) c).run s cs) :
    q ∈ (Re.seq a c).run s cs ∨ q ∈ (Re.seq b c).run s cs := by
  simpa [Re.run, List.flatMap_append] using h

theorem run_seq2 {a b : Re} {s : Str} {cs : Caps} {q : Str × Caps} (h : q ∈ (Re.seq a b).run s cs) :
    ∃ q1, q1 ∈ a.run s cs ∧ q ∈ b.run q1.1 q1.2 := List.mem_flatMap.mp h

theorem mem_run_chr {a : Char} {s : Str} {cs : Caps} {q : Str × Caps} (h : q ∈ (Re.chr a).run s cs) : s = a :: q.1 := by
  obtain ⟨c, h1, h2⟩ := mem_run_cls h
  rw [beq_iff_eq] at h1
  rw [h2, h1]

/-- The enumerator pattern matches only lines that start with an enumerator. -/
theorem enumerator_dead {c : Char} {t : Str} (h : isWs c = false) (hn : ¬ Enumerated (c :: t)) :
    reEnumerator.captures (c :: t) = none := by
  rw [Re.captures_none_iff, List.eq_nil_iff_forall_not_mem]
  intro q hq
  apply hn
  unfold reEnumerator at hq
  rw [run_seq_indent h] at hq
  rcases run_seq_alt hq with hq | hq
  · obtain ⟨q1, h1, h2⟩ := run_seq2 hq
    obtain ⟨q2, h3, h4⟩ := run_seq2 h1
    obtain ⟨q3, h5, h6⟩ := run_seq2 h4
    obtain ⟨e, he, hs⟩ := enum_body h5
    exact ⟨e, ')', q1.1, .inr ⟨by rw [mem_run_chr h3, hs, mem_run_chr h6], rfl⟩, he, after_marker h2⟩
  · rcases run_seq_alt hq with hq | hq
    · obtain ⟨q1, q2, h1, h2, h3⟩ := run_seq3 hq
      obtain ⟨e, he, hs⟩ := enum_body h1
      exact ⟨e, ')', q2.1, .inl ⟨by rw [hs, mem_run_chr h2], by simp⟩, he, after_marker h3⟩
    · obtain ⟨q1, q2, h1, h2, h3⟩ := run_seq3 hq
      obtain ⟨e, he, hs⟩ := enum_body h1
      exact ⟨e, '.', q2.1, .inl ⟨by rw [hs, mem_run_chr h2], by simp⟩, he, after_marker h3⟩

/-- One or more of a character. -/
abbrev plusChr (a : Char) : Re := Re.plus true (.chr a)

theorem reLine_eq : reLine = .seq (.cap .g1 (Re.alts (adornments.map plusChr))) (.seq (.star true (.chr ' ')) .eos) := rfl

theorem mem_alts : ∀ {rs : List Re} {s : Str} {cs : Caps} {q : Str × Caps}, rs ≠ [] → q ∈ (Re.alts rs).run s cs →
    ∃ r ∈ rs, q ∈ r.run s cs
  | [], _, _, _, h, _ => absurd rfl h
  | [r], _, _, _, _, h => ⟨r, by simp, h⟩
  | r :: r' :: rs, s, cs, q, _, h => by
    rcases List.mem_append.mp (show q ∈ r.run s cs ++ (Re.alts (r' :: rs)).run s cs from h) with h | h
    · exact ⟨r, by simp, h⟩
    · obtain ⟨x, hx, h⟩ := mem_alts (by simp) h
      exact ⟨x, by simp [hx], h⟩

theorem eq_replicate_of {a : Char} {e : Str} (h : ∀ c ∈ e, c = a) : e = List.replicate e.length a :=
  List.eq_replicate_iff.mpr ⟨rfl, h⟩

/-- The pattern of section lines matches only lines of one repeated character. -/
theorem line_ruled {l : Str} (h : reLine.isMatch l = true) : Ruled l := by
  obtain ⟨m, hm⟩ := (Re.isMatch_iff _ _).mp h
  have hne : reLine.run l [] ≠ [] := fun e => by
    rw [(Re.captures_none_iff _ _).mpr e] at hm; cases hm
  obtain ⟨q, hq⟩ := List.exists_mem_of_ne_nil _ hne
  rw [reLine_eq] at hq
  obtain ⟨q1, h1, h2⟩ := run_seq2 hq
  obtain ⟨q2, h3, h4⟩ := run_seq2 h2
  obtain ⟨q', hq', rfl⟩ := List.mem_map.mp h1
  obtain ⟨r, hr, h5⟩ := mem_alts (by decide) hq'
  obtain ⟨a, ha, rfl⟩ := List.mem_map.mp hr
  obtain ⟨e, he, hea, hs⟩ := mem_run_plus h5
  obtain ⟨sp, hsp, hall⟩ := Consumes.star (P := fun c => c = ' ') (.chr rfl) _ _ _ h3
  have hend : q2.1 = [] := by
    simp only [Re.run] at h4
    split at h4
    · rename_i h; simpa using h
    · cases h4
  rw [hend, List.append_nil] at hsp
  refine ⟨a, e.length - 1, sp.length, ha, ?_⟩
  have : e.length - 1 + 1 = e.length := by cases e with | nil => exact absurd rfl he | cons => simp
  rw [this, ← eq_replicate_of (fun c hc => by simpa using hea c hc), ← eq_replicate_of hall, hs]
  simp only at hsp
  rw [hsp]

theorem text_line {c : Char} {t : Str} (h : isWs c = false) :
    ∃ m, reText.captures (c :: t) = some m ∧ m.getD .g1 = [] := by
  have e : reText.run (c :: t) [] = [(t, [(Grp.g1, [])])] := by
    unfold reText
    rw [run_seq_indent h]
    simp [Re.run, nonWs, h]
  unfold Re.captures
  rw [e]
  exact ⟨_, rfl, by simp [Match.getD, Match.get]⟩

theorem Spec.TextLine.cons {l : Str} (h : TextLine l) : ∃ c t, l = c :: t ∧ isWs c = false := by
  obtain ⟨c, h1, h2⟩ := h.start
  cases l with
  | nil => simp at h1
  | cons a t => simp at h1; subst h1; exact ⟨_, t, rfl, h2⟩

theorem Spec.TextLine.not_blank {l : Str} (h : TextLine l) : isBlank l = false := by
  obtain ⟨c, t, rfl, h2⟩ := h.cons
  exact (isBlank_false_iff _).mpr ⟨c, by simp, h2⟩

theorem Spec.TextLine.trimStart {l : Str} (h : TextLine l) : trimStart l = l := by
  obtain ⟨c, t, rfl, h2⟩ := h.cons
  simp [Rustla.trimStart, h2]

theorem Spec.TextLine.not_line {l : Str} (h : TextLine l) : reLine.isMatch l = false := by
  cases e : reLine.isMatch l with
  | false => rfl
  | true => exact absurd (line_ruled e) h.notRuled

theorem blank_dead {c : Char} {t : Str} (h : isWs c = false) : reBlankLine.captures (c :: t) = none := by
  rw [Re.captures_none_iff]
  unfold reBlankLine
  rw [Re.run, run_star_cls_none (by intro x hx; cases hx; exact h)]
  simp [Re.run]

theorem field_dead {c : Char} {t : Str} (h : isWs c = false) (hn : ¬ FieldMarked (c :: t)) :
    reFieldMarker.captures (c :: t) = none := by
  rw [Re.captures_none_iff, List.eq_nil_iff_forall_not_mem]
  intro q hq
  apply hn
  unfold reFieldMarker at hq
  rw [run_seq_indent h] at hq
  obtain ⟨q1, h1, h2⟩ := run_seq2 hq
  obtain ⟨q2, h3, h4⟩ := run_seq2 h2
  obtain ⟨q3, h5, h6⟩ := run_seq2 h4
  obtain ⟨q', hq', rfl⟩ := List.mem_map.mp h3
  have : ∃ name, name ≠ [] ∧ q1.1 = name ++ q'.1 := by
    rcases List.mem_append.mp hq' with h | h
    · obtain ⟨x, _, e⟩ := mem_run_cls h
      exact ⟨[x], by simp, e⟩
    · obtain ⟨q4, h7, h8⟩ := run_seq2 h
      obtain ⟨x, _, e⟩ := mem_run_cls h7
      obtain ⟨m, e', _⟩ := Consumes.seq (P := fun _ => True) (.star (.cls fun _ _ => trivial)) (.cls fun _ _ => trivial) _ _ _ h8
      exact ⟨x :: m, by simp, by rw [e, e']; rfl⟩
  obtain ⟨name, hne, e⟩ := this
  exact ⟨name, q3.1, by rw [mem_run_chr h1, e, mem_run_chr h5], hne, gap_end h6⟩

theorem dots_run {r : Re} {s : Str} {cs : Caps} (hr : ∀ s cs, r.run s cs ≠ [] → Gap s) (hn : ¬ Explicit s) :
    (Re.seq (Re.lit (str! "..")) r).run s cs = [] := by
  rw [List.eq_nil_iff_forall_not_mem]
  intro q hq
  obtain ⟨q1, h1, h2⟩ := run_seq2 hq
  obtain ⟨q2, h3, h4⟩ := run_seq2 (a := .chr '.') (b := .chr '.') h1
  refine hn ⟨q1.1, by rw [mem_run_chr h3, mem_run_chr h4], hr _ _ (List.ne_nil_of_mem h2)⟩

theorem gap_seq {r : Re} : ∀ s cs, (Re.seq (Re.plus true (.chr ' ')) r).run s cs ≠ [] → Gap s := by
  intro s cs h
  obtain ⟨q, hq⟩ := List.exists_mem_of_ne_nil _ h
  obtain ⟨q1, h1, _⟩ := run_seq2 hq
  exact gap_plus h1

theorem gap_alt : ∀ s cs, (Re.alt (Re.plus true (.chr ' ')) .eos).run s cs ≠ [] → Gap s := by
  intro s cs h
  obtain ⟨q, hq⟩ := List.exists_mem_of_ne_nil _ h
  exact gap_end hq

theorem dots_dead {r : Re} {g : Grp} {c : Char} {t : Str} (hr : ∀ s cs, r.run s cs ≠ [] → Gap s) (h : isWs c = false)
    (hn : ¬ Explicit (c :: t)) :
    (Re.seq (.cap g (.star true (.cls isWs))) (.seq (Re.lit (str! "..")) r)).captures (c :: t) = none := by
  rw [Re.captures_none_iff, run_seq_indent h]
  exact dots_run hr hn

theorem bullet_dead {c : Char} {t : Str} (h : isWs c = false) (hn : ¬ Bulleted (c :: t)) :
    reBullet.captures (c :: t) = none := by
  rw [Re.captures_none_iff, List.eq_nil_iff_forall_not_mem]
  intro q hq
  apply hn
  unfold reBullet at hq
  rw [run_seq_indent h] at hq
  obtain ⟨q1, h1, h2⟩ := run_seq2 hq
  obtain ⟨q', hq', rfl⟩ := List.mem_map.mp h1
  obtain ⟨b, hb, e⟩ := mem_run_cls hq'
  refine ⟨b, q'.1, e, ?_, gap_end h2⟩
  simp only [clsBullet, Bool.or_eq_true, beq_iff_eq] at hb
  simp only [bullets, List.mem_cons, List.not_mem_nil, or_false]
  rcases hb with ((((h | h) | h) | h) | h) | h <;> simp [h]

/-- A blank line is an empty line in every table that starts with it. -/
theorem blank_captures {l : Str} (h : isBlank l = true) : ∃ m, reBlankLine.captures l = some m := by
  have hall := (isBlank_iff l).mp h
  have : l.takeWhile isWs = l := by
    have := List.takeWhile_append_dropWhile (p := isWs) (l := l)
    rwa [(dropWhile_eq_nil isWs l).mpr hall, List.append_nil] at this
  have e : ∃ x xs, reBlankLine.run l [] = x :: xs := by
    unfold reBlankLine
    rw [Re.run, run_star_cls, this, List.range_succ, List.reverse_append, List.map_append, List.flatMap_append]
    simp [Re.run]
  obtain ⟨x, xs, e⟩ := e
  unfold Re.captures
  rw [e]
  exact ⟨_, rfl⟩

theorem blank_transition {l : Str} (h : isBlank l = true) (ts : List (Re × Transition)) :
    ∃ m, firstTransition l ((reBlankLine, emptyLine) :: ts) = some (m, emptyLine) := by
  obtain ⟨m, hm⟩ := blank_captures h
  exact ⟨m, by simp [firstTransition, hm]⟩

theorem adornment_not_ws {c : Char} (hc : c ∈ adornments) : isWs c = false := by
  revert c; decide

theorem blank_not_line {l : Str} (h : isBlank l = true) : reLine.isMatch l = false := by
  cases e : reLine.isMatch l with
  | false => rfl
  | true =>
    obtain ⟨a, n, m, ha, rfl⟩ := line_ruled e
    have hw := (isBlank_iff _).mp h a (by simp)
    rw [adornment_not_ws ha] at hw; cases hw

theorem blank_not_text {l : Str} (h : isBlank l = true) : reText.captures l = none := by
  rw [Re.captures_none_iff]
  have hall := (isBlank_iff l).mp h
  unfold reText
  simp only [Re.run]
  rw [show starRun true (Re.cls isWs).run l.length l [] = _ from run_star_cls isWs l []]
  simp only [List.flatMap_eq_nil_iff, List.mem_map, List.mem_reverse, List.mem_range]
  rintro q ⟨q', ⟨k, _, rfl⟩, rfl⟩
  cases hd : l.drop k with
  | nil => simp [Re.run]
  | cons a s =>
    have : isWs a = true := hall a (List.mem_of_mem_drop (by rw [hd]; simp))
    simp [Re.run, nonWs, this]

end Rustla
