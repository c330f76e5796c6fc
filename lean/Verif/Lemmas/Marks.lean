import Verif.Lemmas.Layout
/-! # The lines that start items of lists -/
namespace Rustla
open Spec

/-- No pattern of a list matches the line. -/
def Unmarked (l : Str) : Prop := reBullet.captures l = none ∧ reEnumerator.captures l = none ∧ reFieldMarker.captures l = none

/-- The states of lists and of list tables. -/
def State.listing (st : State) : Prop := st = .BulletList ∨ st = .EnumeratedList ∨ st = .FieldList ∨ st = .ListTable

instance (st : State) : Decidable st.listing := by unfold State.listing; infer_instance

/-- The tables of lists. -/
def listTable (E : Env) : State → List (Re × Transition)
  | .EnumeratedList => [(reBlankLine, emptyLine), (reEnumerator, listEnumerator E)]
  | .FieldList => [(reBlankLine, emptyLine), (reFieldMarker, listFieldMarker E)]
  | .ListTable => [(reBlankLine, emptyLine), (reBullet, bodyBullet E)]
  | _ => [(reBlankLine, emptyLine), (reBullet, listBullet E)]

theorem State.listing.table {st : State} (h : st.listing) (E : Env) :
    tableOf E st = .ok (listTable E st) ∧ (st ≠ .EOF ∧ st ≠ .Failure) ∧ listTable E st ≠ [] := by
  rcases h with rfl | rfl | rfl | rfl <;> exact ⟨rfl, by simp, by simp [listTable]⟩

theorem State.listing.unmarked {st : State} (h : st.listing) (E : Env) {l : Str} (hl : Unmarked l) (hb : isBlank l = false) :
    firstTransition l (listTable E st) = none := by
  obtain ⟨h1, h2, h3⟩ := hl
  rcases h with rfl | rfl | rfl | rfl <;> simp only [listTable, firstTransition, blankLine_dead hb, h1, h2, h3]

theorem enumerator_space (s : Str) (cs : Caps) {a b c : Re} (ha : a.run (' ' :: s) cs = []) (hb : b.run (' ' :: s) cs = []) :
    (Re.seq (.alt a b) c).run (' ' :: s) cs = [] := run_seq_dead (run_alt_dead ha hb)

theorem no_enumerator {x : Char} {t : Str} (hx : isWs x = false) (hn : ¬ Enumerated (x :: t)) (i : Nat) :
    reEnumerator.captures (spaces i ++ x :: t) = none := by
  refine indented_dead ?_ hx (enumerator_dead hx hn) i
  intro s cs
  refine run_seq_dead (run_alt_dead (chr_space (by decide) _ _ _) (run_alt_dead (run_seq_dead ?_) (run_seq_dead ?_))) <;>
  · simp only [Re.alts]
    repeat (refine run_alt_dead (run_cap_dead ?_) ?_; · first | rfl | exact run_seq_dead rfl)
    exact run_cap_dead (run_chr_ne (by decide) _)

theorem no_bullet {x : Char} {t : Str} (hx : isWs x = false) (hn : ¬ Bulleted (x :: t)) (i : Nat) :
    reBullet.captures (spaces i ++ x :: t) = none := indented_dead (bullet_space _) hx (bullet_dead hx hn) i

theorem no_field {x : Char} {t : Str} (hx : isWs x = false) (hn : ¬ FieldMarked (x :: t)) (i : Nat) :
    reFieldMarker.captures (spaces i ++ x :: t) = none := indented_dead (chr_space (by decide) _) hx (field_dead hx hn) i

/-- An enumerator starts with an opening parenthesis, a number sign, a digit or a letter. -/
theorem not_enumerated {x : Char} (h : x ∈ ['.', ':', '*', '+', '-']) (t : Str) : ¬ Enumerated (x :: t) := by
  rintro ⟨e, d, rest, h1 | h1, h2, _⟩
  · obtain ⟨h1, _⟩ := h1
    have hd : ∀ c ∈ e.head?, c = x := by
      intro c hc
      cases e with
      | nil => simp at hc
      | cons a e => simp at hc h1; rw [← hc]; exact h1.1.symm
    rcases h2 with rfl | ⟨h2, h3⟩
    · have := hd '#' (by simp)
      subst this
      revert h; decide
    · cases e with
      | nil => exact h2 rfl
      | cons a e =>
        have ha := hd a (by simp)
        subst ha
        have key : ∀ y ∈ ['.', ':', '*', '+', '-'], y.isDigit = false ∧ y ∉ str! "ivxlcdm" ∧ y ∉ str! "IVXLCDM" ∧ y.isAlpha = false := by decide
        obtain ⟨k1, k2, k3, k4⟩ := key a h
        rcases h3 with h3 | h3 | h3 | ⟨_, h3⟩
        · have := h3 a (by simp); rw [k1] at this; cases this
        · exact k2 (h3 a (by simp))
        · exact k3 (h3 a (by simp))
        · have := h3 a (by simp); rw [k4] at this; cases this
  · have : x = '(' := by simpa using congrArg List.head? h1.1
    subst this
    revert h; decide

theorem not_bulleted {x : Char} (h : x ∉ bullets) (t : Str) : ¬ Bulleted (x :: t) := by
  rintro ⟨b, rest, e, hb, _⟩
  obtain ⟨rfl, _⟩ := List.cons.inj e
  exact h hb

theorem not_field {x : Char} (h : x ≠ ':') (t : Str) : ¬ FieldMarked (x :: t) := by
  rintro ⟨b, rest, e, hb, _⟩
  exact h (List.cons.inj e).1

theorem unmarked_text {l : Str} (h : FirstLine l) (i : Nat) : Unmarked (indentLine i l) := by
  obtain ⟨c, t, rfl, hc⟩ := h.toTextLine.cons
  exact ⟨no_bullet hc h.notBulleted i, no_enumerator hc h.notEnumerated i, no_field hc h.notField i⟩

theorem unmarked_dots (i : Nat) (t : Str) : Unmarked (spaces i ++ '.' :: t) :=
  ⟨no_bullet (by decide) (not_bulleted (by decide) _) i, no_enumerator (by decide) (not_enumerated (by decide) _) i,
    no_field (by decide) (not_field (by decide) _) i⟩

/-! ## Bullets -/

theorem bullet_alone {b : Char} (hb : b ∈ ['*', '+', '-']) (i : Nat) (l : Str) :
    reEnumerator.captures (bulletLine b i l) = none ∧ reFieldMarker.captures (bulletLine b i l) = none := by
  have hw := (bullet_cls hb).2
  refine ⟨no_enumerator hw (not_enumerated (by simp only [List.mem_cons] at hb ⊢; tauto) _) i, no_field hw (not_field ?_ _) i⟩
  rintro rfl
  revert hb; decide

/-! ## Numbers -/

/-- The match of the pattern of enumerators at a number. -/
theorem number_captures {l : Str} (hl : TextLine l) (i : Nat) (d : EnumDelims) {n : Counter} (hn : n.Ok) :
    ∃ m t, reEnumerator.captures (indentLine i ((Tag.number d n).text ++ l)) = some m ∧
      m.caps = [(.afterMarker, t), (counterGrp d n, n.text), (.indent, spaces i)] ∧ m.whole.length = i + (Tag.number d n).width := by
  obtain ⟨c, r, rfl, hc⟩ := hl.cons
  have e : indentLine i ((Tag.number d n).text ++ c :: r) = spaces i ++ (numeral d n ++ ' ' :: c :: r) := by simp [indentLine, Tag.text]
  rw [e, counter_captures hn i d (l := c :: r) (by
    intro x hx
    obtain rfl : c = x := by simpa using hx
    rintro rfl
    revert hc; decide)]
  exact ⟨_, _, rfl, rfl, by simp [Tag.width]⟩

theorem digit_alone {x : Char} (h : x = '(' ∨ x = '#' ∨ x.isAlphanum = true) : isWs x = false ∧ x ∉ bullets ∧ x ≠ ':' := by
  rcases h with rfl | h
  · decide
  · refine ⟨count_ws h, fun hb => ?_, count_ne h (by decide)⟩
    have : ∀ y ∈ bullets, y ≠ '#' ∧ y.isAlphanum = false := by decide
    exact count_ne h (this x hb) rfl

theorem number_front (d : EnumDelims) {n : Counter} (hn : n.Ok) : ∃ x t, (Tag.number d n).text = x :: t ∧ (x = '(' ∨ x = '#' ∨ x.isAlphanum = true) := by
  obtain ⟨c, t, e, hc⟩ := counter_cons hn
  cases d with
  | Parens => exact ⟨'(', _, rfl, .inl rfl⟩
  | RParen => exact ⟨c, t ++ [')'] ++ [' '], by simp [Tag.text, numeral, e], .inr hc⟩
  | Period => exact ⟨c, t ++ ['.'] ++ [' '], by simp [Tag.text, numeral, e], .inr hc⟩

theorem number_alone (i : Nat) (d : EnumDelims) {n : Counter} (hn : n.Ok) (l : Str) :
    reBullet.captures (indentLine i ((Tag.number d n).text ++ l)) = none ∧
    reFieldMarker.captures (indentLine i ((Tag.number d n).text ++ l)) = none := by
  obtain ⟨x, t, e, hx⟩ := number_front d hn
  obtain ⟨h1, h2, h3⟩ := digit_alone hx
  rw [e]
  exact ⟨no_bullet h1 (not_bulleted h2 _) i, no_field h1 (not_field h3 _) i⟩

theorem noBreak_number (st : State) (i : Nat) (d : EnumDelims) {n : Counter} (hn : n.Ok) (l : Str) : NoBreak st (indentLine i ((Tag.number d n).text ++ l)) := by
  obtain ⟨x, t, e, hx⟩ := number_front d hn
  obtain ⟨h1, h2, h3⟩ := digit_alone hx
  rw [e]
  refine noBreak_indented (t := t ++ l) h1 ?_ fun _ => ?_
  · rintro ⟨y, hy⟩
    exact h3 (by simpa using (congrArg List.head? hy).symm)
  · rintro (⟨y, hy⟩ | ⟨y, hy⟩)
    · have : '-' = x := by simpa using congrArg List.head? hy
      subst this
      exact h2 (by decide)
    · have : '—' = x := by simpa using congrArg List.head? hy
      subst this
      revert hx; decide

/-! ## Fields -/

/-- The match of the pattern of field markers at a field. -/
def fieldMatch (name : List Piece) (i : Nat) (l : Str) : Match :=
  ⟨spaces i ++ (Tag.field name 0).text, l, [(.g2, piecesSource name), (.g1, spaces i)]⟩

theorem field_line {name : List Piece} {w : Nat} {l : Str} (hl : TextLine l) :
    (Tag.field name w).text ++ l = optionLine (piecesSource name, l) ∧ optionHead (piecesSource name, l) = (Tag.field name w).text := by
  obtain ⟨c, r, rfl, hc⟩ := hl.cons
  simp [optionLine, optionHead, behind, Tag.text]

theorem fieldMark_captures {name : List Piece} {w : Nat} {g : List Str} {l : Str} (h : (Tag.field name w).Ok g) (hl : TextLine l) (i : Nat) :
    reFieldMarker.captures (indentLine i ((Tag.field name w).text ++ l)) = some (fieldMatch name i l) := by
  obtain ⟨_, h1, h2, _⟩ := h
  obtain ⟨e1, e2⟩ := field_line (name := name) (w := w) hl
  rw [e1, field_captures (o := (piecesSource name, l)) h1 h2 (by
    intro c hc
    obtain ⟨c', r, e, hw⟩ := hl.cons
    rw [e] at hc
    obtain rfl : c' = c := by simpa using hc
    exact hw) i, e2]
  rfl

theorem field_alone (i : Nat) (name : List Piece) (w : Nat) (l : Str) :
    reBullet.captures (indentLine i ((Tag.field name w).text ++ l)) = none ∧
    reEnumerator.captures (indentLine i ((Tag.field name w).text ++ l)) = none :=
  ⟨no_bullet (x := ':') (by decide) (not_bulleted (by decide) _) i, no_enumerator (x := ':') (by decide) (not_enumerated (by decide) _) i⟩

theorem noBreak_field {name : List Piece} {w : Nat} {g : List Str} (h : (Tag.field name w).Ok g) (st : State) (i : Nat) (l : Str) :
    NoBreak st (indentLine i ((Tag.field name w).text ++ l)) := by
  obtain ⟨_, ⟨⟨⟨c, hc, _⟩, _⟩, _⟩, ⟨hcol, _⟩, _⟩ := h
  refine noBreak_indented (c := ':') (t := piecesSource name ++ [':', ' '] ++ l) (by decide) ?_ fun _ => ?_
  · rintro ⟨y, hy⟩
    cases hs : piecesSource name with
    | nil => rw [hs] at hc; cases hc
    | cons a t =>
      rw [hs] at hy hcol
      obtain rfl : ':' = a := (List.cons.inj (List.cons.inj hy).2).1
      exact hcol (by simp)
  · rintro (⟨y, hy⟩ | ⟨y, hy⟩)
    · have : '-' = ':' := by simpa using congrArg List.head? hy
      revert this; decide
    · have : '—' = ':' := by simpa using congrArg List.head? hy
      revert this; decide

/-! ## What the lines do in the body of a document -/

/-- The look-ahead of a number. -/
def Clear (i : Nat) (ls : List Str) : Prop := ∀ x, ls.head? = some x → isBlank x = true ∨ indentOf x ≠ i

theorem clear_valid {E : Env} {ps : PS} {i : Nat} {l : Str} {ls : List Str} (h : E.src.drop ps.cursor.relativeOffset = l :: ls) (hc : Clear i ls)
    (number : Nat) (kind listKind : EnumKind) (delims : EnumDelims) (inItem : Bool) (item start : Nat) :
    isEnumeratedListItem E.src ps.cursor E.baseIndent (i + E.baseIndent) number kind delims listKind inItem item start = .ok true := by
  refine C12_separated_partial _ _ _ _ _ _ _ _ _ _ _ fun x hx => ?_
  have hnext : E.src[ps.cursor.relativeOffset + 1]? = ls.head? := by
    have := congrArg (·[1]?) h
    rw [List.head?_eq_getElem?]
    simpa using this
  rcases hc x (by rw [← hnext]; exact hx) with h | h
  · exact .inl h
  · exact .inr (by omega)

theorem number_transition {l : Str} (hl : TextLine l) (E : Env) (i : Nat) (d : EnumDelims) {n : Counter} (hn : n.Ok) :
    ∃ m t, firstTransition (indentLine i ((Tag.number d n).text ++ l)) (bodyTable E) = some (m, bodyEnumerator E) ∧
      firstTransition (indentLine i ((Tag.number d n).text ++ l)) (listTable E .EnumeratedList) = some (m, listEnumerator E) ∧
      m.caps = [(.afterMarker, t), (counterGrp d n, n.text), (.indent, spaces i)] ∧ m.whole.length = i + (Tag.number d n).width := by
  obtain ⟨m, t, h1, h2, h3⟩ := number_captures hl i d hn
  have hb : isBlank (indentLine i ((Tag.number d n).text ++ l)) = false := by
    obtain ⟨x, t, e, hx⟩ := number_front d hn
    rw [e]; exact indented_not_blank (digit_alone hx).1 i
  have e := number_alone i d hn l
  exact ⟨m, t, by simp only [bodyTable, bodyRest, firstTransition, blankLine_dead hb, e.1, h1],
    by simp only [listTable, firstTransition, blankLine_dead hb, h1], h2, h3⟩

theorem field_transition {name : List Piece} {w : Nat} {g : List Str} {l : Str} (h : (Tag.field name w).Ok g) (hl : TextLine l) (E : Env) (i : Nat) :
    firstTransition (indentLine i ((Tag.field name w).text ++ l)) (bodyTable E) = some (fieldMatch name i l, bodyFieldMarker E) ∧
    firstTransition (indentLine i ((Tag.field name w).text ++ l)) (listTable E .FieldList) = some (fieldMatch name i l, listFieldMarker E) := by
  have hb : isBlank (indentLine i ((Tag.field name w).text ++ l)) = false := indented_not_blank (c := ':') (by decide) i
  have e := field_alone i name w l
  exact ⟨by simp only [bodyTable, bodyRest, firstTransition, blankLine_dead hb, e.1, e.2, fieldMark_captures h hl i],
    by simp only [listTable, firstTransition, blankLine_dead hb, fieldMark_captures h hl i]⟩

theorem number_indent {m : Match} {t : Str} {d : EnumDelims} {c : Counter} {i : Nat}
    (h : m.caps = [(.afterMarker, t), (counterGrp d c, c.text), (.indent, spaces i)]) : m.getD .indent = spaces i := by
  obtain ⟨k, n, a⟩ := c
  cases d <;> cases a <;> cases k <;> simp [Match.getD, Match.get, h, counterGrp, countGrp]

/-- The look-ahead of a mark: what may stand on the line below it. -/
def Follows (m : Tag) (i : Nat) (ls : List Str) : Prop :=
  Clear i ls ∨ ∃ d c c' l rest, m = .number d c ∧ c.auto = true ∧ c'.auto = true ∧ TextLine l ∧ ls = indentLine i ((Tag.number d c').text ++ l) :: rest

/-- What the look-ahead reads at a number sign on the next line. -/
theorem sign_reads_next {m : Match} {t ws : Str} {d : EnumDelims} {c : Counter} (ha : c.auto = true)
    (h : m.caps = [(.afterMarker, t), (counterGrp d c, c.text), (.indent, ws)]) (lk : Option EnumKind) (il : Bool) (item start : Nat) :
    enumCaptures m lk il true item start = .ok (some (item + start + 1, if item == 0 && !il then .Arabic else lk.getD .Arabic, d)) := by
  obtain ⟨k, n, a⟩ := c
  obtain rfl : a = true := ha
  unfold enumCaptures
  simp only [Match.get, h]
  cases d <;> simp [counterGrp, countGrp, List.find?, autoEnumerator]

theorem follows_valid {E : Env} {ps : PS} {i : Nat} {l : Str} {ls : List Str} {d : EnumDelims} {c : Counter} (h : E.src.drop ps.cursor.relativeOffset = l :: ls)
    (hf : Follows (.number d c) i ls) {number : Nat} {kind listKind : EnumKind} {inItem : Bool} {item start : Nat}
    (ha : c.auto = true → number = item + start ∧ kind = if item == 0 && !inItem then .Arabic else listKind) :
    isEnumeratedListItem E.src ps.cursor E.baseIndent (i + E.baseIndent) number kind d listKind inItem item start = .ok true := by
  rcases hf with hf | ⟨d', c0, c', l', rest, e, hc, hc', hl', rfl⟩
  · exact clear_valid h hf ..
  · obtain ⟨rfl, rfl⟩ : d = d' ∧ c = c0 := by injection e with e1 e2; exact ⟨e1, e2⟩
    obtain ⟨rfl, rfl⟩ := ha hc
    have hok : c'.Ok := fun h => by rw [hc'] at h; cases h
    obtain ⟨m, t, g1, g2, _⟩ := number_captures hl' i d hok
    have hnext : E.src[ps.cursor.relativeOffset + 1]? = some (indentLine i ((Tag.number d c').text ++ l')) := by
      have := congrArg (·[1]?) h
      simpa using this
    obtain ⟨x, t', e, hx⟩ := number_front d hok
    have hw := (digit_alone hx).1
    unfold isEnumeratedListItem
    rw [hnext]
    have hblank : isBlank (indentLine i ((Tag.number d c').text ++ l')) = false := by rw [e]; exact indented_not_blank hw i
    have hind : indentOf (indentLine i ((Tag.number d c').text ++ l')) = i := by rw [e]; exact indentOf_indented hw i
    simp only [hind, hblank, Nat.lt_irrefl, decide_false, Bool.or_false, Bool.false_eq_true, if_false, gt_iff_lt, if_true, g1,
      sign_reads_next hc' g2, Option.getD_some]
    simp

theorem means_auto (n : Counter) (lk : Option EnumKind) (inItem : Bool) (item start : Nat) (listKind : EnumKind)
    (h : n.auto = true → (if item == 0 && !inItem then .Arabic else lk.getD .Arabic) = if item == 0 && !inItem then .Arabic else listKind) :
    n.auto = true → (counterMeans n lk inItem item start).1 = item + start ∧
      (counterMeans n lk inItem item start).2 = if item == 0 && !inItem then .Arabic else listKind := by
  intro ha
  refine ⟨by simp [counterMeans, ha], ?_⟩
  rw [← h ha]
  simp [counterMeans, ha]

theorem number_acts {E : Env} {i : Nat} {d : EnumDelims} {n : Counter} {l : Str} {ls : List Str} {ps : PS}
    (h : E.src.drop ps.cursor.relativeOffset = indentLine i ((Tag.number d n).text ++ l) :: ls) (hl : TextLine l) (hn : n.Ok)
    (hc : Follows (.number d n) i ls) :
    ∃ m tr, firstTransition (indentLine i ((Tag.number d n).text ++ l)) (bodyTable E) = some (m, tr) ∧ tr m ps =
      atIndent (i + E.baseIndent) (P.pushFocus (.EnumeratedList d (counterMeans n none false 0 1).2 (counterMeans n none false 0 1).1 0 (i + E.baseIndent)) >>= fun _ => pure (.push [.EnumeratedList], none)) ps := by
  obtain ⟨m, t, h1, _, h2, h3⟩ := number_transition hl E i d hn
  refine ⟨m, _, h1, ?_⟩
  have e := number_indent h2
  unfold bodyEnumerator
  simp only [e, List.length_replicate, bind, P.bind, P.lift, counter_reads hn h2, P.required, Bool.false_eq_true, if_false, P.cursor, follows_valid h hc (means_auto n none false 0 1 (counterMeans n none false 0 1).2 fun e => by simp [counterMeans, e]),
    Bool.not_true, pure, P.pure]

theorem opens_means {d : EnumDelims} {n : Counter} (ho : (Tag.number d n).opens) : counterMeans n none false 0 1 = (n.value, n.kind) := by
  unfold counterMeans
  split
  · rename_i ha
    obtain ⟨a1, a2⟩ := ho ha
    rw [a1, a2]; rfl
  · rfl

theorem field_acts {E : Env} {i : Nat} {name : List Piece} {w : Nat} {g : List Str} {l : Str} {ps : PS} (h : (Tag.field name w).Ok g) (hl : TextLine l) :
    ∃ m tr, firstTransition (indentLine i ((Tag.field name w).text ++ l)) (bodyTable E) = some (m, tr) ∧ tr m ps =
      atIndent (i + E.baseIndent) (P.pushFocus (.FieldList (i + E.baseIndent)) >>= fun _ => pure (.push [.FieldList], none)) ps := by
  refine ⟨_, _, (field_transition h hl E i).1, ?_⟩
  have e : (fieldMatch name i l).getD .g1 = spaces i := rfl
  unfold bodyFieldMarker
  simp only [e, List.length_replicate]

/-! ## Opening and leaving lists -/

/-- The state of a list with items like this. -/
def Spec.Tag.state : Tag → State
  | .bullet _ => .BulletList
  | .number .. => .EnumeratedList
  | .field .. => .FieldList

theorem tag_simple (m : Tag) (j n : Nat) : Simple (m.list j n).kind := by
  cases m with
  | bullet b => exact simple_list
  | number d n => exact (show Simple Kind.EnumeratedList from ⟨by decide, by decide, by decide, by decide, by decide⟩)
  | field name w => exact (show Simple Kind.FieldList from ⟨by decide, by decide, by decide, by decide, by decide⟩)

theorem item_simple (m : Tag) (j : Nat) : Simple (m.item j).kind := by
  cases m with
  | bullet b => exact simple_item
  | number d n => exact (show Simple Kind.EnumeratedListItem from ⟨by decide, by decide, by decide, by decide, by decide⟩)
  | field name w => exact (show Simple Kind.FieldListItem from ⟨by decide, by decide, by decide, by decide, by decide⟩)

theorem tag_body (m : Tag) (j n : Nat) : .Body ∈ (m.list j n).kind.categories := by
  cases m with
  | bullet b => exact (show _ ∈ Kind.BulletList.categories by decide)
  | number d n => exact (show _ ∈ Kind.EnumeratedList.categories by decide)
  | field name w => exact (show _ ∈ Kind.FieldList.categories by decide)

theorem bodyBullet_acts (E : Env) (b : Char) (i : Nat) (l : Str) (ps : PS) : bodyBullet E (bulletMatch b i l) ps =
    atIndent (i + E.baseIndent) (P.pushFocus (.BulletList b (i + E.baseIndent) (i + E.baseIndent + 2)) >>= fun _ => pure (.push [.BulletList], none)) ps := by
  unfold bodyBullet
  have e1 : (bulletMatch b i l).getD .g2 = [b] := rfl
  have e2 : (bulletMatch b i l).getD .g1 = spaces i := rfl
  have e3 : (bulletMatch b i l).whole.length + E.baseIndent = i + E.baseIndent + 2 := by
    have : (bulletMatch b i l).whole.length = i + 2 := by simp [bulletMatch]
    omega
  simp only [e1, e2, e3, bind, P.bind, P.lift, List.length_replicate]

/-- The pattern of bullets is the second one of the table of a list table. -/
theorem table_transition (E : Env) {b : Char} {l : Str} (hb : clsBullet b = true) (hw : isWs b = false) (i : Nat)
    (h : TextLine l) : firstTransition (bulletLine b i l) (listTable E .ListTable) = some (bulletMatch b i l, bodyBullet E) := by
  simp only [firstTransition, listTable, blankLine_dead (bulletLine_not_blank hw i l), bullet_captures hb hw i h]

theorem tag_acts {E : Env} {i : Nat} {m : Tag} {g : List Str} {l : Str} {ls : List Str} {ps : PS}
    (h : E.src.drop ps.cursor.relativeOffset = indentLine i (m.text ++ l) :: ls) (hm : m.Ok g) (ho : m.opens) (hl : TextLine l) (hc : m.numbered → Follows m i ls) :
    ∃ x tr, firstTransition (indentLine i (m.text ++ l)) (bodyTable E) = some (x, tr) ∧ tr x ps =
      atIndent (i + E.baseIndent) (P.pushFocus (m.list (i + E.baseIndent) 0) >>= fun _ => pure (.push [m.state], none)) ps := by
  cases m with
  | bullet b =>
    obtain ⟨hb, hw⟩ := bullet_cls hm
    exact ⟨bulletMatch b i l, bodyBullet E, bullet_transition E hb hw i hl, bodyBullet_acts E b i l ps⟩
  | number d n =>
    have := number_acts h hl hm (hc trivial)
    rw [opens_means ho] at this
    exact this
  | field name w => exact field_acts hm hl

/-- A mark is read at its indentation. -/
theorem tag_goes {E : Env} {i : Nat} {m : Tag} {g : List Str} {l : Str} {ls : List Str} {ps : PS}
    (h : E.src.drop ps.cursor.relativeOffset = indentLine i (m.text ++ l) :: ls) (hm : m.Ok g) (hl : TextLine l) (hc : m.numbered → Follows m i ls) :
    ∃ x tr act, firstTransition (indentLine i (m.text ++ l)) (bodyTable E) = some (x, tr) ∧ tr x ps = atIndent (i + E.baseIndent) act ps := by
  cases m with
  | bullet b =>
    obtain ⟨x, tr, h1, h2⟩ := tag_acts h hm trivial hl hc
    exact ⟨x, tr, _, h1, h2⟩
  | number d n =>
    obtain ⟨x, tr, h1, h2⟩ := number_acts h hl hm (hc trivial)
    exact ⟨x, tr, _, h1, h2⟩
  | field name w =>
    obtain ⟨x, tr, h1, h2⟩ := tag_acts h hm trivial hl hc
    exact ⟨x, tr, _, h1, h2⟩

theorem noBreak_tag {m : Tag} {g : List Str} (hm : m.Ok g) (st : State) (i : Nat) (l : Str) : NoBreak st (indentLine i (m.text ++ l)) := by
  cases m with
  | bullet b => exact noBreak_bullet (bullet_cls hm).1 (bullet_cls hm).2 i l
  | number d n => exact noBreak_number st i d hm l
  | field name w => exact noBreak_field hm st i l

/-- The frame of a list with this first mark and the given items. -/
abbrev tagFrame (m : Tag) (i count : Nat) (ss : List Shape) : Frame := ⟨m.state, m.list i count, ss, []⟩

/-- A mark at the indentation of the focused node opens a list. -/
theorem AtL.open_tag {E : Env} {S : SectionData} {os : List Frame} {s : LoopState} {f : Frame} {fs : List Frame} {l : Str} {g ls : List Str}
    {c : Nat} {m : Tag} {i j : Nat} (hij : i + E.baseIndent = j) (h : At E S os s (f :: fs) (indentLine i (m.text ++ l) :: ls) c)
    (hc : c ≤ 9) (hf : f.Body E j) (hm : m.Ok g) (ho : m.opens) (hl : TextLine l) (hclear : m.numbered → Follows m i ls) :
    Leads E S os s (tagFrame m j 0 [] :: f :: fs) (indentLine i (m.text ++ l) :: ls) (c + 1) := by
  obtain ⟨d', h1, h2, h3⟩ := h.spine.push (data := m.list j 0) m.state (hf.kids _ (tag_body m j 0))
    (tag_simple m j 0) (by cases m <;> rfl) (by cases m <;> rfl) h.calm
  obtain ⟨x, tr, k1, k2⟩ := tag_acts h.here hm ho hl hclear
  rw [hij, atIndent_right h.spine hf.indent] at k2
  have hres : tr x s.ps = .ok (.push [m.state], none) { s.ps with doc := d' } := by
    rw [k2]
    simp only [bind, P.bind, h1, pure, P.pure]
  obtain ⟨ts, ht, hts⟩ := hf.table
  have := step_stays (h.stands hc) ht hf.notEnd ((hts _ (noBreak_tag hm _ i l)).trans k1) hres rfl
    (stack := s.stack ++ [m.state]) rfl
  refine ⟨_, .step this, ⟨h.here, h2, ?_, ?_, h3.trans h.secs⟩⟩
  · simp [h.stack_cons, stackFor]
  · have := h.count; simp only; omega

/-- The state and the node of a list at an indentation. -/
inductive Listed : State → NodeType → Nat → Prop
  | bullet (b : Char) (i t : Nat) : Listed .BulletList (.BulletList b i t) i
  | number (d : EnumDelims) (k : EnumKind) (start n i : Nat) : Listed .EnumeratedList (.EnumeratedList d k start n i) i
  | field (i : Nat) : Listed .FieldList (.FieldList i) i
  | table (i : Nat) (t : Option Str) (c : Option TableColWidths) (w : Option MetricType) (r k : Option Nat) (a : Option HorizontalAlignment) :
      Listed .ListTable (.ListTable i t c w r k a) i

theorem Listed.listing {st : State} {data : NodeType} {i : Nat} (h : Listed st data i) : st.listing := by
  cases h <;> simp [State.listing]

/-- The mark at the given indentation is one of the next item of the list, or it does not close the table. -/
def Continues (i : Nat) : Tag → NodeType → Prop
  | .bullet b, .BulletList b' i' _ => b' = b ∧ i' = i
  | .number d c, .EnumeratedList d' kind start k i' => d' = d ∧ (c.auto = true ∨ c.kind = kind ∧ c.value = k + start) ∧ i' = i
  | .field .., .FieldList i' => i' = i
  | .bullet _, .ListTable i' .. => i' ≤ i
  | _, _ => False

/-- The mark is the one of the next item of the list. -/
def Succeeds (i : Nat) : Tag → NodeType → Prop
  | .number d c, .EnumeratedList d' kind start k i' => d' = d ∧ (c.kind = kind ∧ c.value = k + start) ∧ i' = i
  | m, data => Continues i m data

theorem Succeeds.continues {i : Nat} {m m0 : Tag} {j n : Nat} (h : Succeeds i m (m0.list j n)) : Continues i m (m0.list j n) := by
  cases m0 <;> cases m <;> first | exact h | exact ⟨h.1, .inr h.2.1, h.2.2⟩

theorem Listed.continues {st : State} {data : NodeType} {i j : Nat} {m : Tag} (h : Listed st data i) (hc : Continues j m data) : i ≤ j := by
  cases h <;> cases m
  all_goals first
    | exact Nat.le_of_eq hc.2
    | exact Nat.le_of_eq hc.2.2
    | exact Nat.le_of_eq hc
    | exact hc
    | exact hc.elim

/-- A list is left at a line that no list takes. -/
theorem AtL.leave_unmarked {labels : List Str} {E : Env} {S : SectionData} {os : List Frame} {s : LoopState} {e f : Frame} {fs : List Frame} {l : Str} {ls : List Str} {c : Nat}
    (h : AtL labels E S os s (e :: f :: fs) (l :: ls) c) (hc : c ≤ 9) (he : e.st.listing) (hb : firstTransition l (listTable E e.st) = none) :
    LeadsL labels E S os s (f.add [e.shape] :: fs) (l :: ls) c := by
  obtain ⟨d', h1, h2, h3⟩ := h.spine.parent
  obtain ⟨t1, t2, t3⟩ := he.table E
  have := step_noMatch (h.stands hc) t1 t2 t3 hb h1
  refine ⟨_, .step this, ⟨h.here, h2, ?_, h.count, h3.trans h.secs⟩⟩
  simp [h.stack_cons, stackFor, Frame.add]

theorem LeadsL.more {labels : List Str} {E : Env} {S : SectionData} {os : List Frame} {s : LoopState} {frames : List Frame} {lines : List Str} {c : Nat}
    (h : LeadsL labels E S os s frames lines c) : LeadsL labels E S os s frames lines (c + 1) := by
  obtain ⟨s', k1, k2⟩ := h
  exact ⟨s', k1, k2.here, k2.spine, k2.stack, Nat.le_succ_of_le k2.count, k2.secs⟩

/-- A list is left at a mark that does not continue it. -/
theorem AtL.leave_tag {E : Env} {S : SectionData} {os : List Frame} {s : LoopState} {e f : Frame} {fs : List Frame} {l : Str} {g ls : List Str}
    {c : Nat} {m : Tag} {i j k : Nat} (hij : i + E.baseIndent = j) (h : At E S os s (e :: f :: fs) (indentLine i (m.text ++ l) :: ls) c)
    (hc : c ≤ 9) (he : Listed e.st e.data k) (hne : ¬ Continues j m e.data) (hm : m.Ok g) (hl : TextLine l) (hclear : m.numbered → Follows m i ls) :
    Leads E S os s (f.add [e.shape] :: fs) (indentLine i (m.text ++ l) :: ls) (c + 1) := by
  have hb : isBlank (indentLine i (m.text ++ l)) = false := by
    obtain ⟨x, t, e, hx⟩ := tag_cons hm
    rw [e]; exact indented_not_blank hx i
  obtain ⟨st, data, done, extra⟩ := e
  have hdata := h.spine.data
  have hother : firstTransition (indentLine i (m.text ++ l)) (listTable E st) = none → 
      Leads E S os s (f.add [Frame.shape ⟨st, data, done, extra⟩] :: fs) (indentLine i (m.text ++ l) :: ls) (c + 1) :=
    fun hno => (h.leave_unmarked hc he.listing hno).more
  obtain ⟨d', h1, h2, h3⟩ := h.spine.leave
  cases he with
  | bullet b' _ t =>
    cases m with
    | bullet b =>
      obtain ⟨hb1, hw⟩ := bullet_cls hm
      refine AtL.leave_other_list (b := b) (b' := b') (i' := k) (t := t) hij h hc rfl rfl ?_ hl hb1 hw
      by_cases e : b' = b
      · exact .inr fun e' => hne ⟨e, e'⟩
      · exact .inl e
    | number d n => exact hother (by simp only [listTable, firstTransition, blankLine_dead hb, number_alone i d hm l])
    | field name w => exact hother (by simp only [listTable, firstTransition, blankLine_dead hb, field_alone])
  | number d' kind start n' _ =>
    cases m with
    | bullet b =>
      have e : reEnumerator.captures (indentLine i ((Tag.bullet b).text ++ l)) = none := (bullet_alone hm i l).1
      exact hother (by simp only [listTable, firstTransition, blankLine_dead hb, e])
    | number d n =>
      obtain ⟨x, t, k1, k2, k3, k4⟩ := number_transition hl E i d hm
      refine h.left hc (n := s.ps.sectionLevel) (ts := listTable E .EnumeratedList) rfl (by simp) k2 ?_ h2 h3
      have e1 := number_indent k3
      have hcond : ¬ (d' = d ∧ (counterMeans n (some kind) true n' start).2 = kind ∧ k = i + E.baseIndent ∧
          (counterMeans n (some kind) true n' start).1 = n' + start) := by
        rintro ⟨a1, a4, a2, a3⟩
        refine hne ⟨a1, ?_, by omega⟩
        unfold counterMeans at a3 a4
        split at a3
        · rename_i ha; exact .inl ha
        · rename_i ha; rw [if_neg ha] at a4; exact .inr ⟨a4, a3⟩
      unfold listEnumerator
      simp only [e1, List.length_replicate, bind, P.bind, P.lift, counter_reads hm k3, P.required, Bool.false_eq_true, if_false, P.cursor,
        follows_valid h.here (hclear trivial) (means_auto n (some kind) true n' start kind fun _ => by simp), Bool.not_true, P.doc, DocTree.sharedData, hdata, asEnumList, pure, P.pure]
      simp only [hcond, if_false]
      exact h1
    | field name w => exact hother (by simp only [listTable, firstTransition, blankLine_dead hb, field_alone])
  | field _ =>
    cases m with
    | bullet b =>
      have e : reFieldMarker.captures (indentLine i ((Tag.bullet b).text ++ l)) = none := (bullet_alone hm i l).2
      exact hother (by simp only [listTable, firstTransition, blankLine_dead hb, e])
    | number d n => exact hother (by simp only [listTable, firstTransition, blankLine_dead hb, number_alone i d hm l])
    | field name w =>
      refine h.left hc (n := s.ps.sectionLevel) (ts := listTable E .FieldList) rfl (by simp) (field_transition hm hl E i).2 ?_ h2 h3
      have e : (fieldMatch name i l).getD .g1 = spaces i := rfl
      have hcond : ¬ (k = i + E.baseIndent) := fun e => hne (by rw [← hij]; exact e)
      unfold listFieldMarker
      simp only [e, List.length_replicate, bind, P.bind, P.lift, P.required, P.cursor, P.doc, DocTree.sharedData, hdata, asFieldList, pure, P.pure]
      rw [if_neg hcond]
      exact h1
  | table _ t w x r k' a =>
    cases m with
    | bullet b =>
      obtain ⟨hb1, hw⟩ := bullet_cls hm
      have hlow : j < k := by
        have : ¬ k ≤ j := hne
        omega
      refine h.left hc (n := s.ps.sectionLevel) (ts := listTable E .ListTable) rfl (by simp) (table_transition E hb1 hw i hl) ?_ h2 h3
      have e : bodyBullet E (bulletMatch b i l) s.ps = _ := bodyBullet_acts E b i l s.ps
      refine e.trans ?_
      rw [hij, atIndent_low h.spine (t := k) rfl hlow]
      exact h1
    | number d n => exact hother (by simp only [listTable, firstTransition, blankLine_dead hb, number_alone i d hm l])
    | field name w => exact hother (by simp only [listTable, firstTransition, blankLine_dead hb, field_alone])

end Rustla
