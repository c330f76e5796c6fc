import Verif.Lemmas.Rel
import Verif.Lemmas.IndentedLines
import Verif.Spec.Explicit
/-! # Directive markers and option lines -/
namespace Rustla
open Spec

theorem alnum_cls {c : Char} : clsAlnum c = true ↔ c.isAlphanum = true := by
  simp [clsAlnum, Char.isAlphanum, Char.isAlpha, Char.isUpper, Char.isLower, Char.isDigit, Char.le_def, or_comm]

theorem alpha_cls {c : Char} : clsAlpha c = true ↔ c.isAlpha = true := by
  simp [clsAlpha, Char.isAlpha, Char.isUpper, Char.isLower, Char.le_def, or_comm]

theorem sep_cls {c : Char} : clsRefSep c = true ↔ c ∈ separators := by
  simp [clsRefSep, separators, or_assoc]

theorem alnum_of_alpha {c : Char} (h : c.isAlpha = true) : c.isAlphanum = true := by simp [Char.isAlphanum, h]

theorem alnum_not_ws {c : Char} (h : c.isAlphanum = true) : isWs c = false := by
  rw [← alnum_cls] at h
  simp only [clsAlnum, Bool.or_eq_true, Bool.and_eq_true, decide_eq_true_eq] at h
  cases hw : isWs c with
  | false => rfl
  | true =>
    exfalso
    simp [isWs] at hw
    rcases h with (⟨h1, h2⟩ | ⟨h1, h2⟩) | ⟨h1, h2⟩ <;>
    · simp only [Char.le_def, UInt32.le_iff_toNat_le] at h1 h2
      revert h1 h2 hw
      simp only [show ∀ c : Char, c.val.toNat = c.toNat from fun _ => rfl]
      simp
      omega

/-! ## Names -/

/-- Separators, each in front of at least one letter or digit. -/
inductive SepTail : Str → Prop
  | nil : SepTail []
  | more {c : Char} {w t : Str} : c ∈ separators → w ≠ [] → (∀ x ∈ w, x.isAlphanum = true) → SepTail t → SepTail (c :: (w ++ t))

theorem mem_sepTail {s : Str} {cs : Caps} {q : Str × Caps} :
    q ∈ (Re.star true (.seq (.cls clsRefSep) (Re.plus true (.cls clsAlnum)))).run s cs ↔
      q.2 = cs ∧ ∃ m, s = m ++ q.1 ∧ SepTail m := by
  constructor
  · induction hn : s.length using Nat.strongRecOn generalizing s with
    | ind n ih =>
      intro hq
      rcases mem_star.mp hq with rfl | ⟨r, hr, hlt, hq'⟩
      · exact ⟨rfl, [], rfl, .nil⟩
      · obtain ⟨p, hp, hr⟩ := mem_seq.mp hr
        obtain ⟨c, t, rfl, hc, rfl⟩ := mem_cls.mp hp
        obtain ⟨h1, w, hw, h2, h3⟩ := mem_plus_cls.mp hr
        dsimp only at h1 h2
        rw [h1] at hq'
        obtain ⟨h4, m, h5, h6⟩ := ih r.1.length (by rw [← hn]; exact hlt) rfl hq'
        exact ⟨h4, c :: (w ++ m), by rw [h2, h5]; simp,
          .more (sep_cls.mp hc) hw (fun x hx => alnum_cls.mp (h3 x hx)) h6⟩
  · rintro ⟨rfl, m, rfl, hm⟩
    induction hm with
    | nil => exact mem_star.mpr (.inl rfl)
    | @more c w t hc hw ha _ ih =>
      refine mem_star.mpr (.inr ⟨(t ++ q.1, q.2), ?_, by simp; omega, ih⟩)
      exact mem_seq.mpr ⟨(w ++ t ++ q.1, q.2), mem_cls.mpr ⟨c, _, rfl, sep_cls.mpr hc, rfl⟩,
        mem_plus_cls.mpr ⟨rfl, w, hw, by simp, fun x hx => alnum_cls.mpr (ha x hx)⟩⟩

theorem nameTail_split : ∀ {t : Str}, NameTail t → ∃ w s, t = w ++ s ∧ (∀ x ∈ w, x.isAlphanum = true) ∧ SepTail s := by
  intro t
  induction t with
  | nil => intro _; exact ⟨[], [], rfl, by simp, .nil⟩
  | cons c t ih =>
    intro h
    cases t with
    | nil => exact ⟨[c], [], rfl, by simpa [NameTail] using h, .nil⟩
    | cons d t =>
      obtain ⟨hc, h⟩ := h
      obtain ⟨w, s, e, hw, hs⟩ := ih h
      rcases hc with hc | ⟨hc, hd⟩
      · exact ⟨c :: w, s, by rw [e]; rfl, by simpa using ⟨hc, hw⟩, hs⟩
      · refine ⟨[], c :: (w ++ s), by rw [e]; rfl, by simp, .more hc ?_ hw hs⟩
        rintro rfl
        cases hs with
        | nil => simp at e
        | more hc' => 
          simp only [List.nil_append, List.cons.injEq] at e
          rw [e.1] at hd
          revert hd
          have : ∀ x ∈ separators, x.isAlphanum = false := by decide
          rw [this _ hc']; simp

/-- No spaces, and each colon stands in front of a letter or digit. -/
def Tight : Str → Prop
  | [] => True
  | [c] => c ≠ ' ' ∧ c ≠ ':'
  | c :: d :: t => c ≠ ' ' ∧ (c = ':' → d.isAlphanum = true) ∧ Tight (d :: t)

theorem alnum_tight {c : Char} (h : c.isAlphanum = true) : c ≠ ' ' ∧ c ≠ ':' :=
  ⟨by rintro rfl; revert h; decide, by rintro rfl; revert h; decide⟩

theorem tight_alnum {c : Char} {t : Str} (h : c.isAlphanum = true) (ht : Tight t) : Tight (c :: t) := by
  cases t with
  | nil => exact alnum_tight h
  | cons d t => exact ⟨(alnum_tight h).1, fun e => absurd e (alnum_tight h).2, ht⟩

theorem tight_word {w t : Str} (h : ∀ x ∈ w, x.isAlphanum = true) (ht : Tight t) : Tight (w ++ t) := by
  induction w with
  | nil => exact ht
  | cons c w ih => exact tight_alnum (h c (by simp)) (ih fun x hx => h x (by simp [hx]))

theorem SepTail.tight {t : Str} (h : SepTail t) : Tight t := by
  induction h with
  | nil => trivial
  | @more c w t hc hw ha _ ih =>
    have := tight_word ha ih
    cases w with
    | nil => exact absurd rfl hw
    | cons d w =>
      refine ⟨?_, fun _ => ha d (by simp), this⟩
      rintro rfl; revert hc; decide

theorem Tight.tail {c : Char} {t : Str} (h : Tight (c :: t)) : Tight t := by
  cases t with
  | nil => trivial
  | cons d t => exact h.2.2

theorem Tight.head {c : Char} {t : Str} (h : Tight (c :: t)) : c ≠ ' ' := by
  cases t with
  | nil => exact h.1
  | cons d t => exact h.1

theorem Tight.colon {t : Str} (h : Tight (':' :: t)) : ∃ d t', t = d :: t' ∧ d.isAlphanum = true := by
  cases t with
  | nil => exact absurd rfl h.2
  | cons d t => exact ⟨d, t, rfl, h.2.1 rfl⟩

/-- Two tight words in front of two colons, perhaps with a space between the word and the colons. -/
theorem tight_unique {m n o t t' : Str} (hm : Tight m) (hn : Tight n) (ho : o = [] ∨ o = [' '])
    (e : n ++ ':' :: ':' :: t = m ++ (o ++ ':' :: ':' :: t')) : m = n ∧ o = [] ∧ t = t' := by
  induction n generalizing m with
  | nil =>
    cases m with
    | nil =>
      rcases ho with rfl | rfl
      · simp at e; exact ⟨rfl, rfl, e⟩
      · simp at e
    | cons c m =>
      simp only [List.nil_append, List.cons_append, List.cons.injEq] at e
      obtain ⟨rfl, e⟩ := e
      obtain ⟨d, m', rfl, hd⟩ := hm.colon
      simp only [List.cons_append, List.cons.injEq] at e
      obtain ⟨rfl, _⟩ := e
      exact absurd hd (by decide)
  | cons d n ih =>
    cases m with
    | nil =>
      rcases ho with rfl | rfl
      · simp only [List.nil_append, List.cons_append, List.cons.injEq] at e
        obtain ⟨rfl, e⟩ := e
        obtain ⟨d, n', rfl, hd⟩ := hn.colon
        simp only [List.cons_append, List.cons.injEq] at e
        obtain ⟨rfl, _⟩ := e
        exact absurd hd (by decide)
      · simp only [List.nil_append, List.cons_append, List.cons.injEq] at e
        exact absurd e.1 hn.head
    | cons c m =>
      simp only [List.cons_append, List.cons.injEq] at e
      obtain ⟨rfl, e⟩ := e
      obtain ⟨rfl, h2, h3⟩ := ih hm.tail hn.tail e
      exact ⟨rfl, h2, h3⟩

/-- The pattern of a name. -/
abbrev nameRe : Re := .seq (.cls clsAlpha) (.seq (Re.plus true (.cls clsAlnum)) (.star true (.seq (.cls clsRefSep) (Re.plus true (.cls clsAlnum)))))

theorem mem_name {s : Str} {cs : Caps} {q : Str × Caps} : q ∈ nameRe.run s cs ↔
    q.2 = cs ∧ ∃ a w m, s = a :: (w ++ (m ++ q.1)) ∧ a.isAlpha = true ∧ w ≠ [] ∧ (∀ x ∈ w, x.isAlphanum = true) ∧ SepTail m := by
  constructor
  · intro hq
    obtain ⟨r, hr, hq⟩ := mem_seq.mp hq
    obtain ⟨a, t, rfl, ha, rfl⟩ := mem_cls.mp hr
    obtain ⟨r, hr, hq⟩ := mem_seq.mp hq
    obtain ⟨h1, w, hw, h2, h3⟩ := mem_plus_cls.mp hr
    obtain ⟨h4, m, h5, h6⟩ := mem_sepTail.mp hq
    dsimp only at h1 h2
    exact ⟨h4.trans h1, a, w, m, by rw [h2, h5], alpha_cls.mp ha, hw, fun x hx => alnum_cls.mp (h3 x hx), h6⟩
  · rintro ⟨rfl, a, w, m, rfl, ha, hw, h3, h6⟩
    exact mem_seq.mpr ⟨_, mem_cls.mpr ⟨a, _, rfl, alpha_cls.mpr ha, rfl⟩,
      mem_seq.mpr ⟨(m ++ q.1, q.2), mem_plus_cls.mpr ⟨rfl, w, hw, rfl, fun x hx => alnum_cls.mpr (h3 x hx)⟩,
      mem_sepTail.mpr ⟨rfl, m, rfl, h6⟩⟩⟩

theorem mem_name' {s : Str} {cs : Caps} {q : Str × Caps} (h : q ∈ nameRe.run s cs) :
    q.2 = cs ∧ ∃ m, s = m ++ q.1 ∧ Tight m ∧ ∃ a m', m = a :: m' ∧ a.isAlpha = true := by
  obtain ⟨h1, a, w, m, h2, h3, _, h4, h5⟩ := mem_name.mp h
  exact ⟨h1, a :: (w ++ m), by rw [h2]; simp, tight_alnum (alnum_of_alpha h3) (tight_word h4 h5.tight), a, _, rfl, h3⟩

theorem name_run {n : Str} (h : DirName n) (s : Str) (cs : Caps) : (s, cs) ∈ nameRe.run (n ++ s) cs := by
  obtain ⟨a, b, t, rfl, ha, hb, ht⟩ := h
  obtain ⟨w, m, rfl, hw, hm⟩ := nameTail_split ht
  exact mem_name.mpr ⟨rfl, a, b :: w, m, by simp, ha, by simp, by simpa using ⟨hb, hw⟩, hm⟩

theorem Spec.DirName.tight {n : Str} (h : DirName n) : Tight n := by
  obtain ⟨a, b, t, rfl, ha, hb, ht⟩ := h
  obtain ⟨w, m, rfl, hw, hm⟩ := nameTail_split ht
  exact tight_alnum (alnum_of_alpha ha) (tight_alnum hb (tight_word hw hm.tight))

/-! ## Gaps -/

/-- The gap behind a marker. -/
abbrev gapRe : Re := .alt (Re.plus true (.chr ' ')) .eos

/-- Text that is empty or starts with something visible. -/
def Flush (t : Str) : Prop := ∀ c, t.head? = some c → isWs c = false

theorem Flush.not_space {t : Str} (h : Flush t) : ∀ s, t ≠ ' ' :: s := by
  rintro s rfl
  have := h ' ' rfl
  revert this; decide

theorem mem_gap {t : Str} (h : Flush t) {cs : Caps} {q : Str × Caps} : q ∈ gapRe.run (behind t) cs ↔ q = (t, cs) := by
  unfold behind
  by_cases ht : t = []
  · subst ht
    rw [if_pos rfl, mem_alt, mem_plus_chr, mem_eos]
    constructor
    · rintro (⟨_, n, h⟩ | ⟨_, h⟩)
      · simp [List.replicate_succ] at h
      · exact h
    · intro h; exact .inr ⟨rfl, h⟩
  · rw [if_neg ht, mem_alt, mem_plus_chr, mem_eos]
    constructor
    · rintro (⟨h1, n, h2⟩ | ⟨h1, _⟩)
      · rw [List.replicate_succ, List.cons_append, List.cons.injEq] at h2
        cases n with
        | zero => exact Prod.ext (by simpa using h2.2.symm) h1
        | succ n => exact absurd h2.2 (h.not_space _)
      · cases h1
    · rintro rfl; exact .inl ⟨rfl, 0, rfl⟩

theorem gap_run_eq {t : Str} (h : Flush t) (cs : Caps) : ∃ zs, gapRe.run (behind t) cs = (t, cs) :: zs := by
  cases hr : gapRe.run (behind t) cs with
  | nil => have := (mem_gap h (cs := cs)).mpr rfl; rw [hr] at this; cases this
  | cons q qs => rw [(mem_gap h).mp (by rw [hr]; simp : q ∈ _)]; exact ⟨_, rfl⟩

/-! ## Directive lines -/

theorem Spec.Inset.flush {t : Str} (h : Inset t) : Flush t := by
  intro c hc
  obtain ⟨c', h1, h2⟩ := h.1
  rw [h1] at hc; cases hc; exact h2

theorem Spec.Dir.Ok.flush {d : Dir} (h : d.Ok) : Flush d.arg := by
  rcases h.arg with h | h
  · rw [h]; simp [Flush]
  · exact h.1.flush

/-- The marker of a directive up to its text. -/
def Spec.Dir.head (d : Dir) : Str := str! ".. " ++ d.name ++ str! "::" ++ (if d.arg = [] then [] else [' '])

theorem Spec.Dir.marker_eq (d : Dir) : d.marker = d.head ++ d.arg := by
  unfold Dir.marker Dir.head behind
  split
  · rename_i h; rw [h]; simp
  · simp

/-- The match of a directive line. -/
def directiveMatch (d : Dir) (i : Nat) : Match := ⟨spaces i ++ d.head, d.arg, [(.g2, d.name), (.g1, spaces i)]⟩

theorem dots_mem {r : Re} {s : Str} {cs : Caps} {q : Str × Caps} :
    q ∈ (Re.seq (Re.lit (str! "..")) (.seq (Re.plus true (.chr ' ')) r)).run ('.' :: '.' :: ' ' :: s) cs ↔
      ∃ n s', ' ' :: s = List.replicate (n + 1) ' ' ++ s' ∧ q ∈ r.run s' cs := by
  rw [mem_seq]
  constructor
  · rintro ⟨p, hp, hq⟩
    obtain ⟨h1, h2⟩ := mem_lit.mp hp
    obtain ⟨p', hp', hq⟩ := mem_seq.mp hq
    obtain ⟨h3, n, h4⟩ := mem_plus_chr.mp hp'
    have : p.1 = ' ' :: s := by simpa using h1.symm
    exact ⟨n, p'.1, by rw [← this, h4], by rw [← h2, ← h3]; exact hq⟩
  · rintro ⟨n, s', h1, h2⟩
    exact ⟨(' ' :: s, cs), mem_lit.mpr ⟨rfl, rfl⟩, mem_seq.mpr ⟨(s', cs), mem_plus_chr.mpr ⟨rfl, n, h1⟩, h2⟩⟩

theorem dots_mem_one {r : Re} {c : Char} {s : Str} (hc : c ≠ ' ') {cs : Caps} {q : Str × Caps} :
    (∃ n s', ' ' :: c :: s = List.replicate (n + 1) ' ' ++ s' ∧ q ∈ r.run s' cs) ↔ q ∈ r.run (c :: s) cs := by
  constructor
  · rintro ⟨n, s', h1, h2⟩
    cases n with
    | zero => simp at h1; rw [h1]; exact h2
    | succ n => simp [List.replicate_succ] at h1; exact absurd h1.1 hc
  · intro h; exact ⟨0, c :: s, rfl, h⟩

theorem directive_captures {d : Dir} (h : d.Ok) (i : Nat) :
    reDirective.captures (indentLine i d.marker) = some (directiveMatch d i) := by
  have e : indentLine i d.marker = (spaces i ++ d.head) ++ d.arg := by
    unfold indentLine; rw [d.marker_eq, List.append_assoc]
  obtain ⟨a, n', hn, ha⟩ : ∃ a n', d.name = a :: n' ∧ a.isAlpha = true := by
    obtain ⟨a, b, t, e, ha, _⟩ := h.name
    exact ⟨a, b :: t, e, ha⟩
  have hm : d.marker = '.' :: '.' :: ' ' :: (d.name ++ ':' :: ':' :: behind d.arg) := by
    unfold Dir.marker; simp
  have key : ∀ q, q ∈ reDirective.run (indentLine i d.marker) [] ↔ q = (d.arg, [(.g2, d.name), (.g1, spaces i)]) := by
    intro q
    unfold reDirective indentLine
    rw [hm, run_seq_spaces (dots_space _) (by decide), dots_mem]
    rw [hn, List.cons_append, dots_mem_one (alnum_tight (alnum_of_alpha ha)).1, ← List.cons_append, ← hn]
    rw [mem_seq]
    constructor
    · rintro ⟨r, hr, hq⟩
      obtain ⟨m, r, e1, hr', rfl⟩ := mem_cap.mp hr
      obtain ⟨h1, m', h2, h3, _⟩ := mem_name' hr'
      have : m = m' := List.append_cancel_right (e1.symm.trans h2)
      subst this
      obtain ⟨r1, hr1, hq1⟩ := mem_seq.mp hq
      obtain ⟨r2, hr2, hq2⟩ := mem_seq.mp hq1
      obtain ⟨e2, e3⟩ := mem_lit.mp hr2
      have : ∃ o, (o = [] ∨ o = [' ']) ∧ r.1 = o ++ r1.1 ∧ r1.2 = (Grp.g2, m) :: r.2 := by
        rcases mem_opt.mp hr1 with hr1 | rfl
        · obtain ⟨t, e, rfl⟩ := mem_chr.mp hr1
          exact ⟨[' '], .inr rfl, e, rfl⟩
        · exact ⟨[], .inl rfl, rfl, rfl⟩
      obtain ⟨o, ho, e4, e5⟩ := this
      have e2' : r1.1 = ':' :: ':' :: r2.1 := e2
      rw [e4, e2'] at h2
      obtain ⟨rfl, _, e6⟩ := tight_unique h3 h.name.tight ho h2
      rw [← e6] at hq2
      rw [(mem_gap h.flush).mp hq2, e3, e5, h1]
    · rintro rfl
      refine ⟨(':' :: ':' :: behind d.arg, (.g2, d.name) :: [(.g1, spaces i)]),
        mem_cap.mpr ⟨d.name, (':' :: ':' :: behind d.arg, [(.g1, spaces i)]), rfl, name_run h.name _ _, rfl⟩, ?_⟩
      exact mem_seq.mpr ⟨_, mem_opt.mpr (.inr rfl), mem_seq.mpr ⟨(behind d.arg, _), mem_lit.mpr ⟨rfl, rfl⟩, (mem_gap h.flush).mpr rfl⟩⟩
  rw [e] at key ⊢
  exact captures_of_unique ((key _).mpr rfl) fun q hq => (key q).mp hq

/-! ## Option lines -/

/-- An option line up to its value. -/
def optionHead (o : Str × Str) : Str := ':' :: (o.1 ++ ':' :: (if o.2 = [] then [] else [' ']))

theorem optionLine_eq (o : Str × Str) : optionLine o = optionHead o ++ o.2 := by
  unfold optionLine optionHead behind
  split
  · rename_i h; rw [h]; simp
  · simp

theorem nonWs_bs {c : Char} (h1 : isWs c = false) (h2 : c ≠ '\\') : clsNonWsNonBackslash c = true := by
  simp [clsNonWsNonBackslash, h1, h2]

theorem field_captures {o : Str × Str} (hkey : Snug o.1) (hplain : ':' ∉ o.1 ∧ '\\' ∉ o.1) (hv : Flush o.2) (k : Nat) :
    reFieldMarker.captures (indentLine k (optionLine o)) =
      some ⟨spaces k ++ optionHead o, o.2, [(.g2, o.1), (.g1, spaces k)]⟩ := by
  have hrun : ∃ zs, reFieldMarker.run (indentLine k (optionLine o)) [] = (o.2, [(.g2, o.1), (.g1, spaces k)]) :: zs := by
    unfold reFieldMarker indentLine optionLine
    rw [run_seq_spaces (chr_space (by decide) _) (by decide)]
    obtain ⟨⟨⟨x, hx, hxw⟩, hnl⟩, y, hy, hyw⟩ := hkey
    obtain ⟨pre, post, hc, hpre⟩ := content_run (A := clsNonWsNonBackslash) (F := nonWs) (B := clsNotNewline) (c := o.1)
      (e := ':' :: behind o.2) [(.g1, spaces k)] ⟨x, hx, by simp [nonWs, hxw]⟩
      ⟨y, hy, nonWs_bs hyw (by rintro rfl; exact hplain.2 (List.mem_of_getLast? hy))⟩
      (fun z hz => by
        have : z ≠ '\n' := by rintro rfl; exact hnl hz
        simp [clsNotNewline, this])
    obtain ⟨ys, hg⟩ := gap_run_eq hv [(.g2, o.1), (.g1, spaces k)]
    have h1 : (Re.seq (.chr ':') gapRe).run (':' :: behind o.2) [(.g2, o.1), (.g1, spaces k)] =
        (o.2, [(.g2, o.1), (.g1, spaces k)]) :: ys := by
      simp only [Re.run, Re.chr, beq_self_eq_true, if_true, List.flatMap_cons, List.flatMap_nil, List.append_nil]
      exact hg
    have h2 : ∀ q : Str × Caps, (∃ x y, o.1 = x ++ y ∧ y ≠ [] ∧ q.1 = y ++ ':' :: behind o.2) → (Re.seq (.chr ':') gapRe).run q.1 q.2 = [] := by
      rintro q ⟨x, y, e1, e2, e3⟩
      cases y with
      | nil => exact absurd rfl e2
      | cons z y =>
        rw [e3]
        refine run_seq_dead (run_chr_ne ?_ _)
        rintro rfl
        exact hplain.1 (by rw [e1]; simp)
    have e : (Re.seq (.chr ':') (.seq (.cap .g2 (.alt (.cls clsNonWsNonBackslash)
        (.seq (.cls nonWs) (.seq (.star false (.cls clsNotNewline)) (.cls clsNonWsNonBackslash))))) (.seq (.chr ':') gapRe))).run
          (':' :: (o.1 ++ ':' :: behind o.2)) [(.g1, spaces k)] =
        ((Re.cap .g2 (.alt (.cls clsNonWsNonBackslash)
        (.seq (.cls nonWs) (.seq (.star false (.cls clsNotNewline)) (.cls clsNonWsNonBackslash))))).run (o.1 ++ ':' :: behind o.2) [(.g1, spaces k)]).flatMap
          fun q => (Re.seq (.chr ':') gapRe).run q.1 q.2 := by
      rw [Re.run]
      simp only [Re.chr, Re.run, beq_self_eq_true, if_true, List.flatMap_cons, List.flatMap_nil, List.append_nil]
    refine (show ∃ zs, (Re.seq _ _).run _ _ = _ from ?_)
    rw [e]
    have hcap : (Re.cap .g2 (.alt (.cls clsNonWsNonBackslash)
        (.seq (.cls nonWs) (.seq (.star false (.cls clsNotNewline)) (.cls clsNonWsNonBackslash))))).run (o.1 ++ ':' :: behind o.2) [(.g1, spaces k)] =
        (pre.map fun q => (q.1, (Grp.g2, (o.1 ++ ':' :: behind o.2).take ((o.1 ++ ':' :: behind o.2).length - q.1.length)) :: q.2)) ++
          (':' :: behind o.2, [(.g2, o.1), (.g1, spaces k)]) ::
          post.map fun q => (q.1, (Grp.g2, (o.1 ++ ':' :: behind o.2).take ((o.1 ++ ':' :: behind o.2).length - q.1.length)) :: q.2) := by
      rw [Re.run, hc, List.map_append, List.map_cons]
      congr 2
      simp
    rw [hcap]
    refine flatMap_first ?_ h1
    intro q hq
    obtain ⟨p, hp, rfl⟩ := List.mem_map.mp hq
    exact h2 _ (hpre p hp).2
  obtain ⟨zs, hrun⟩ := hrun
  unfold Re.captures
  rw [hrun]
  simp only [Option.some.injEq, Match.mk.injEq, and_true]
  unfold indentLine
  rw [optionLine_eq, ← List.append_assoc, List.length_append, Nat.add_sub_cancel, List.take_left]

theorem option_captures {o : Str × Str} (h : OptionOk o) (k : Nat) :
    reFieldMarker.captures (indentLine k (optionLine o)) =
      some ⟨spaces k ++ optionHead o, o.2, [(.g2, o.1), (.g1, spaces k)]⟩ := by
  refine field_captures h.key h.plain ?_ k
  rcases h.value with h | h
  · rw [h]; simp [Flush]
  · exact h.1.flush

/-! ## Which transition a directive line takes -/

/-- The patterns in front of those of directives and comments in the table do not match a line that starts with two
dots unless a bracket or an underscore follows. -/
theorem dots_transition (E : Env) (i : Nat) (s : Str) (h : ∀ n t, s = List.replicate (n + 1) ' ' ++ t → t.head? ≠ some '[' ∧ t.head? ≠ some '_') :
    firstTransition (spaces i ++ '.' :: '.' :: s) (bodyTable E) = firstTransition (spaces i ++ '.' :: '.' :: s)
      [(reDirective, bodyDirective E), (reComment, bodyComment E), (reLine, bodyLine E), (reText, bodyText E)] ∧
    reBullet.captures (spaces i ++ '.' :: '.' :: s) = none := by
  have hw : isWs '.' = false := by decide
  have hbul : reBullet.captures (spaces i ++ '.' :: '.' :: s) = none := by
    refine indented_dead (bullet_space _) hw (bullet_dead hw ?_) i
    rintro ⟨b, rest, e, hb, _⟩
    cases e
    exact absurd hb (by decide)
  have henum : reEnumerator.captures (spaces i ++ '.' :: '.' :: s) = none := by
    refine indented_dead ?_ hw (enumerator_dead hw ?_) i
    · intro s cs
      refine run_seq_dead (run_alt_dead (chr_space (by decide) _ _ _) (run_alt_dead (run_seq_dead ?_) (run_seq_dead ?_))) <;>
      · simp only [Re.alts]
        repeat (refine run_alt_dead (run_cap_dead ?_) ?_; · first | rfl | exact run_seq_dead rfl)
        exact run_cap_dead (run_chr_ne (by decide) _)
    · rintro ⟨e, d, rest, h1 | h1, h2, _⟩
      · have hd : ∀ c ∈ e.head?, c = '.' := by
          intro c hc
          cases e with
          | nil => simp at hc
          | cons a e => simp at hc h1; rw [← hc]; exact h1.1.1.symm
        rcases h2 with rfl | ⟨h2, h3⟩
        · exact absurd (hd '#' (by simp)) (by decide)
        · cases e with
          | nil => exact h2 rfl
          | cons a e =>
            have ha := hd a (by simp)
            subst ha
            rcases h3 with h3 | h3 | h3 | ⟨_, h3⟩ <;> exact absurd (h3 '.' (by simp)) (by decide)
      · simp at h1
  have hfield : reFieldMarker.captures (spaces i ++ '.' :: '.' :: s) = none := by
    refine indented_dead (chr_space (by decide) _) hw (field_dead hw ?_) i
    rintro ⟨name, rest, e, _⟩
    simp at e
  have hdots : ∀ {g : Grp} {a : Char} {r : Re}, (a = '[' ∨ a = '_') →
      (Re.seq (.cap g (.star true (.cls isWs))) (.seq (Re.lit (str! "..")) (.seq (Re.plus true (.chr ' ')) (.seq (.chr a) r)))).captures
        (spaces i ++ '.' :: '.' :: s) = none := by
    intro g a r ha
    rw [Re.captures_none_iff, run_seq_spaces (dots_space _) hw, List.eq_nil_iff_forall_not_mem]
    intro q hq
    obtain ⟨p, hp, hq⟩ := mem_seq.mp hq
    obtain ⟨e1, _⟩ := mem_lit.mp hp
    obtain ⟨p', hp', hq⟩ := mem_seq.mp hq
    obtain ⟨_, n, e2⟩ := mem_plus_chr.mp hp'
    obtain ⟨p'', hp'', _⟩ := mem_seq.mp hq
    obtain ⟨t, e3, _⟩ := mem_chr.mp hp''
    have e1' : s = p.1 := by simpa using e1
    have := h n p'.1 (by rw [e1', e2])
    rw [e3] at this
    rcases ha with rfl | rfl
    · exact this.1 rfl
    · exact this.2 rfl
  refine ⟨?_, hbul⟩
  simp only [firstTransition, bodyTable, bodyRest, blankLine_dead (indented_not_blank hw i), hbul, henum, hfield,
    show reFootnote.captures (spaces i ++ '.' :: '.' :: s) = none from hdots (.inl rfl),
    show reCitation.captures (spaces i ++ '.' :: '.' :: s) = none from hdots (.inl rfl),
    show reHyperlinkTarget.captures (spaces i ++ '.' :: '.' :: s) = none from hdots (.inr rfl)]

theorem marker_dots (d : Dir) : ∃ t, d.marker = '.' :: '.' :: ' ' :: t := ⟨_, by unfold Dir.marker; simp; rfl⟩

theorem Spec.Dir.Ok.dots {d : Dir} (h : d.Ok) (i : Nat) : ∃ a n, a.isAlpha = true ∧
    indentLine i d.marker = spaces i ++ '.' :: '.' :: ' ' :: a :: n := by
  obtain ⟨a, b, t, e, ha, _⟩ := h.name
  refine ⟨a, b :: t ++ ':' :: ':' :: behind d.arg, ha, ?_⟩
  unfold indentLine Dir.marker; rw [e]; simp

theorem one_space {a : Char} {n : Str} (ha : a.isAlpha = true) (k : Nat) (t : Str)
    (e : ' ' :: a :: n = List.replicate (k + 1) ' ' ++ t) : t.head? ≠ some '[' ∧ t.head? ≠ some '_' := by
  cases k with
  | zero =>
    have : t = a :: n := by simpa using e.symm
    subst this
    constructor <;> · intro h; simp at h; subst h; revert ha; decide
  | succ k =>
    simp [List.replicate_succ] at e
    rw [e.1] at ha; exact absurd ha (by decide)

theorem directive_transition (E : Env) {d : Dir} (h : d.Ok) (i : Nat) :
    firstTransition (indentLine i d.marker) (bodyTable E) = some (directiveMatch d i, bodyDirective E) ∧
    reBullet.captures (indentLine i d.marker) = none := by
  obtain ⟨a, n, ha, e⟩ := h.dots i
  obtain ⟨h1, h2⟩ := dots_transition E i (' ' :: a :: n) (fun k t e => one_space ha k t e)
  refine ⟨?_, by rw [e]; exact h2⟩
  rw [← e] at h1
  rw [h1, firstTransition, directive_captures h i]

end Rustla
