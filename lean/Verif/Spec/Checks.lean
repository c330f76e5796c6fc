import Verif.Spec.Documents
/-! # Checking that documents are well-formed

These decision procedures are used for examples only. -/
namespace Rustla.Spec

instance (s : Str) : Decidable (Gap s) := by unfold Gap; infer_instance
instance (e : Str) : Decidable (EnumeratorText e) := by unfold EnumeratorText; infer_instance

instance decidableBulleted : (l : Str) → Decidable (Bulleted l)
  | [] => isFalse (by rintro ⟨b, rest, h, _⟩; cases h)
  | b :: rest => decidable_of_iff (b ∈ bullets ∧ Gap rest) ⟨fun h => ⟨b, rest, rfl, h⟩, by
      rintro ⟨b, rest, h, h'⟩; cases h; exact h'⟩

theorem split_at {α : Type} [BEq α] {l : List α} {d : α} {P : List α → List α → Prop} :
    (∃ e rest, l = e ++ d :: rest ∧ P e rest) ↔ ∃ n ∈ List.range l.length, l[n]? = some d ∧ P (l.take n) (l.drop (n + 1)) := by
  constructor
  · rintro ⟨e, rest, rfl, h⟩
    exact ⟨e.length, by simp, by simp, by simpa using h⟩
  · rintro ⟨n, _, h1, h2⟩
    refine ⟨_, _, ?_, h2⟩
    obtain ⟨hn, rfl⟩ := List.getElem?_eq_some_iff.mp h1
    rw [List.getElem_cons_drop, List.take_append_drop]

instance (l : Str) (d : Char) (P : Str → Str → Prop) [∀ e r, Decidable (P e r)] : Decidable (∃ e rest, l = e ++ d :: rest ∧ P e rest) :=
  decidable_of_iff _ split_at.symm

theorem enumerated_iff (l : Str) : Enumerated l ↔ (∃ e rest, l = e ++ '.' :: rest ∧ (EnumeratorText e ∧ Gap rest)) ∨
    (∃ e rest, l = e ++ ')' :: rest ∧ (EnumeratorText e ∧ Gap rest)) ∨
    (l.head? = some '(' ∧ ∃ e rest, l.tail = e ++ ')' :: rest ∧ (EnumeratorText e ∧ Gap rest)) := by
  constructor
  · rintro ⟨e, d, rest, ⟨h, hd⟩ | ⟨h, rfl⟩, h'⟩
    · simp only [List.mem_cons, List.not_mem_nil, or_false] at hd
      rcases hd with rfl | rfl
      · exact .inl ⟨e, rest, h, h'⟩
      · exact .inr (.inl ⟨e, rest, h, h'⟩)
    · exact .inr (.inr ⟨by rw [h]; rfl, e, rest, by rw [h]; rfl, h'⟩)
  · rintro (⟨e, rest, h, h'⟩ | ⟨e, rest, h, h'⟩ | ⟨hp, e, rest, h, h'⟩)
    · exact ⟨e, _, rest, .inl ⟨h, by simp⟩, h'⟩
    · exact ⟨e, _, rest, .inl ⟨h, by simp⟩, h'⟩
    · cases l with
      | nil => cases hp
      | cons a l =>
        cases hp
        exact ⟨e, ')', rest, .inr ⟨congrArg _ h, rfl⟩, h'⟩

instance (l : Str) : Decidable (Enumerated l) := decidable_of_iff _ (enumerated_iff l).symm

instance decidableField : (l : Str) → Decidable (FieldMarked l)
  | [] => isFalse (by rintro ⟨b, rest, h, _⟩; cases h)
  | c :: l => decidable_of_iff (c = ':' ∧ ∃ e rest, l = e ++ ':' :: rest ∧ (e ≠ [] ∧ Gap rest)) ⟨by
      rintro ⟨rfl, e, rest, rfl, h⟩
      exact ⟨e, rest, rfl, h⟩, by
      rintro ⟨e, rest, h, h'⟩
      cases h
      exact ⟨rfl, e, rest, rfl, h'⟩⟩

instance decidableExplicit : (l : Str) → Decidable (Explicit l)
  | [] => isFalse (by rintro ⟨rest, h, _⟩; cases h)
  | [_] => isFalse (by rintro ⟨rest, h, _⟩; cases h)
  | a :: b :: rest => decidable_of_iff (a = '.' ∧ b = '.' ∧ Gap rest) ⟨by
      rintro ⟨rfl, rfl, h⟩; exact ⟨rest, rfl, h⟩, by
      rintro ⟨rest, h, h'⟩; cases h; exact ⟨rfl, rfl, h'⟩⟩

instance (l : Str) : Decidable (Ruled l) :=
  decidable_of_iff (∃ a ∈ adornments, ∃ n ∈ List.range l.length,
    l = List.replicate (n + 1) a ++ List.replicate (l.length - (n + 1)) ' ') ⟨by
      rintro ⟨a, ha, n, _, h⟩
      exact ⟨a, n, _, ha, h⟩, by
      rintro ⟨a, n, m, ha, h⟩
      refine ⟨a, ha, n, ?_, ?_⟩
      · rw [h]; simp; omega
      · rw [h]; simp⟩

instance (l : Str) : Decidable (TextLine l) :=
  decidable_of_iff ((∃ c, l.head? = some c ∧ isWs c = false) ∧ ¬ Ruled l ∧ '\n' ∉ l)
    ⟨fun ⟨a, b, c⟩ => ⟨a, b, c⟩, fun ⟨a, b, c⟩ => ⟨a, b, c⟩⟩

instance (l : Str) : Decidable (FirstLine l) :=
  decidable_of_iff (TextLine l ∧ ¬ Bulleted l ∧ ¬ Enumerated l ∧ ¬ FieldMarked l ∧ ¬ Explicit l)
    ⟨fun ⟨a, b, c, d, e⟩ => ⟨a, b, c, d, e⟩, fun ⟨a, b, c, d, e⟩ => ⟨a, b, c, d, e⟩⟩

instance (l : Str) : Decidable (PlainLine l) :=
  decidable_of_iff (FirstLine l ∧ markupFree l) ⟨fun ⟨a, b⟩ => ⟨a, b⟩, fun ⟨a, b⟩ => ⟨a, b⟩⟩

instance decidableTextLines : (g : List Str) → Decidable (TextLines g)
  | [] => isTrue trivial
  | l :: ls => inferInstanceAs (Decidable (FirstLine l ∧ ∀ x ∈ ls, TextLine x))

instance (g : List Str) (ps : List Piece) : Decidable (Para g ps) :=
  decidable_of_iff (g ≠ [] ∧ TextLines g ∧ Pieces ps ∧ groupText g = piecesSource ps ∧ ∀ l ∈ g.head?.toList, ¬ str! "::newcol" <+: l)
    ⟨fun ⟨a, b, c, d, e⟩ => ⟨a, b, c, d, fun l h => e l (by simp [h])⟩, fun ⟨a, b, c, d, e⟩ => ⟨a, b, c, d, fun l h => e l (by simpa using h)⟩⟩

instance decidableSomeList (o : Option Str) (p : Str → Prop) [DecidablePred p] : Decidable (∃ x, o = some x ∧ p x) :=
  match o with
  | none => isFalse (by rintro ⟨x, h, _⟩; cases h)
  | some x => decidable_of_iff (p x) ⟨fun h => ⟨x, rfl, h⟩, by rintro ⟨y, h, h'⟩; cases h; exact h'⟩

instance decidableAllSome {α : Type} (o : Option α) (p : α → Prop) [DecidablePred p] : Decidable (∀ x, o = some x → p x) :=
  match o with
  | none => isTrue (by intro x h; cases h)
  | some x => decidable_of_iff (p x) ⟨by rintro h y ⟨⟩; exact h, fun h => h x rfl⟩

instance decidableNameTail : (s : Str) → Decidable (NameTail s)
  | [] => isTrue trivial
  | [c] => by unfold NameTail; infer_instance
  | c :: d :: rest => by
    have := decidableNameTail rest
    have := decidableNameTail (d :: rest)
    unfold NameTail; infer_instance

instance decidableDirName : (s : Str) → Decidable (DirName s)
  | [] => isFalse (by rintro ⟨a, b, t, h, _⟩; cases h)
  | [_] => isFalse (by rintro ⟨a, b, t, h, _⟩; cases h)
  | a :: b :: t => decidable_of_iff (a.isAlpha = true ∧ b.isAlphanum = true ∧ NameTail t)
    ⟨fun h => ⟨a, b, t, rfl, h⟩, by rintro ⟨_, _, _, h, h'⟩; cases h; exact h'⟩
instance (t : Str) : Decidable (Inset t) := by unfold Inset; infer_instance
instance (t : Str) : Decidable (Snug t) := by unfold Snug; infer_instance
instance (o : Str × Str) : Decidable (OptionOk o) :=
  decidable_of_iff (Snug o.1 ∧ (':' ∉ o.1 ∧ '\\' ∉ o.1) ∧ (o.2 = [] ∨ Snug o.2))
    ⟨fun ⟨a, b, c⟩ => ⟨a, b, c⟩, fun ⟨a, b, c⟩ => ⟨a, b, c⟩⟩
instance (d : Dir) : Decidable d.Ok :=
  decidable_of_iff (DirName d.name ∧ (d.arg = [] ∨ (Inset d.arg ∧ ¬ FieldMarked d.arg)) ∧ ∀ o ∈ d.opts, OptionOk o)
    ⟨fun ⟨a, b, c⟩ => ⟨a, b, c⟩, fun ⟨a, b, c⟩ => ⟨a, b, c⟩⟩
instance (g : List Str) : Decidable (Group g) :=
  decidable_of_iff ((∃ l, g.head? = some l ∧ ∃ c, l.head? = some c ∧ isWs c = false) ∧ (∀ l ∈ g, isBlank l = false) ∧
    ∃ l, g.getLast? = some l ∧ ∃ c, l.getLast? = some c ∧ isWs c = false)
    ⟨fun ⟨a, b, c⟩ => ⟨a, b, c⟩, fun ⟨a, b, c⟩ => ⟨a, b, c⟩⟩
instance (ls : List Str) : Decidable (ContentLines ls) := by unfold ContentLines; infer_instance

theorem inputType_iff (t : Str) : InputType t ↔ t = str! "file" ∨ t = str! "clickable" ∨
    (t.take 9 = str! "dropdown:" ∧ ':' ∉ t.drop 9) := by
  unfold InputType
  constructor
  · rintro (h | h | ⟨x, rfl, h⟩)
    · exact .inl h
    · exact .inr (.inl h)
    · exact .inr (.inr ⟨rfl, h⟩)
  · rintro (h | h | ⟨h, h'⟩)
    · exact .inl h
    · exact .inr (.inl h)
    · exact .inr (.inr ⟨t.drop 9, by rw [← h, List.take_append_drop], h'⟩)

instance (t : Str) : Decidable (InputType t) := decidable_of_iff _ (inputType_iff t).symm
instance (L : Leaf) : Decidable L.Ok := by cases L <;> unfold Leaf.Ok <;> infer_instance
instance (L : Leaf) : Decidable L.Tidy := by cases L <;> unfold Leaf.Tidy <;> infer_instance
instance (L : Leaf) (gap : List Str) : Decidable (L.GapOk gap) := by cases L <;> unfold Leaf.GapOk <;> infer_instance
instance (t : Str) : Decidable (∃ c, t = [c] ∧ c.isUpper = true) :=
  match t with
  | [] => isFalse (by rintro ⟨c, h, _⟩; cases h)
  | [c] => decidable_of_iff (c.isUpper = true) ⟨fun h => ⟨c, rfl, h⟩, by rintro ⟨_, h, h'⟩; cases h; exact h'⟩
  | _ :: _ :: _ => isFalse (by rintro ⟨c, h, _⟩; cases h)
instance (a : Exercise) : Decidable a.Ok :=
  decidable_of_iff ((a.key ≠ [] ∧ ∀ c ∈ a.key, c.isAlphanum = true) ∧ (a.level = [] ∨ ∃ c, a.level = [c] ∧ c.isUpper = true) ∧
    (∀ c ∈ a.points, c.isDigit = true) ∧ (a.gap = 0 → a.level = [] ∧ a.points = []))
    ⟨fun ⟨a, b, c, d⟩ => ⟨a, b, c, d⟩, fun ⟨a, b, c, d⟩ => ⟨a, b, c, d⟩⟩
instance (X : Box) : Decidable X.Ok := by cases X <;> unfold Box.Ok <;> infer_instance

instance (g : List Str) (ps : List Piece) : Decidable (Prose g ps) :=
  decidable_of_iff (g ≠ [] ∧ (∀ l ∈ g, Inset l) ∧ Pieces ps ∧ unlines g = piecesSource ps)
    ⟨fun ⟨a, b, c, d⟩ => ⟨a, b, c, d⟩, fun ⟨a, b, c, d⟩ => ⟨a, b, c, d⟩⟩
instance (any : Bool) (c : Choice) : Decidable (c.Ok any) :=
  decidable_of_iff ((c.label ≠ [] ∧ ∀ x ∈ c.label, isWs x = false) ∧
    (c.label.head? ≠ some '+' ∧ c.label.head? ≠ some '*' ∧ c.label.head? ≠ some '?') ∧ (any = false → c.mark ≠ some .neutral) ∧
    Pieces c.answer ∧ Inset (piecesSource c.answer))
    ⟨fun ⟨a, b, c, d, e⟩ => ⟨a, b, c, d, e⟩, fun ⟨a, b, c, d, e⟩ => ⟨a, b, c, d, e⟩⟩
instance (type : AplusQuestionnaireType) (h : Hint) : Decidable (h.Ok type) :=
  decidable_of_iff ((Snug h.label ∧ h.label.head? ≠ some '!') ∧ (type ≠ .FreeText → ∀ x ∈ h.label, isWs x = false) ∧
    Pieces h.text ∧ Snug (piecesSource h.text) ∧ (type = .FreeText → '§' ∉ piecesSource h.text))
    ⟨fun ⟨a, b, c, d, e⟩ => ⟨a, b, c, d, e⟩, fun ⟨a, b, c, d, e⟩ => ⟨a, b, c, d, e⟩⟩
instance (type : AplusQuestionnaireType) (h : Hints) : Decidable (h.Ok type) :=
  decidable_of_iff ((∀ l ∈ h.gap, isBlank l = true) ∧ h.gap ≠ [] ∧ (∀ x ∈ h.hints, x.Ok type) ∧ (∀ l ∈ h.after, isBlank l = true) ∧
    (h.hints.isEmpty = false → h.after ≠ []))
    ⟨fun ⟨a, b, c, d, e⟩ => ⟨a, b, c, d, fun h => e (by simpa using h)⟩, fun ⟨a, b, c, d, e⟩ => ⟨a, b, c, d, fun h => e (by simpa using h)⟩⟩
instance (t : Task) : Decidable t.Ok :=
  decidable_of_iff (Prose t.lines t.pieces ∧ t.gap ≠ [] ∧ ∀ l ∈ t.gap, isBlank l = true)
    ⟨fun ⟨a, b⟩ => ⟨a, b⟩, fun ⟨a, b⟩ => ⟨a, b⟩⟩
instance (l : Str) : Decidable (ChoiceMarked l) :=
  decidable_of_iff (∃ e rest, l = e ++ '.' :: rest ∧ (rest.head? = some ' ' ∧ ∀ c ∈ e, isWs c = false)) ⟨by
    rintro ⟨e, rest, rfl, h1, h2⟩
    cases rest with
    | nil => cases h1
    | cons c t => cases h1; exact ⟨e, t, rfl, h2⟩, by
    rintro ⟨e, t, rfl, h⟩
    exact ⟨e, _, rfl, rfl, h⟩⟩
instance (e : Entry) : Decidable e.Ok := by
  cases e with
  | text g ps gap => unfold Entry.Ok; infer_instance
  | pick any d gap task cs H =>
    have : Decidable (cs ≠ []) := decidable_of_iff (cs.isEmpty = false) (by cases cs <;> simp)
    unfold Entry.Ok; infer_instance
  | free d p m gap task a H => unfold Entry.Ok; infer_instance
instance decidableAnnounced (text left : Str) : Decidable (Announced text left) :=
  decidable_of_iff ((text = left ++ [':'] ∧ left.getLast? = some ':' ∧ ∃ c, left.dropLast.getLast? = some c ∧ isWs c = false) ∨
    (text = left ++ [':', ':'] ∧ ∃ c, left.getLast? = some c ∧ isWs c = true))
    ⟨fun h => h.elim (fun ⟨a, b, c⟩ => .colon a b c) (fun ⟨a, b⟩ => .space a b), fun
      | .colon a b c => .inl ⟨a, b, c⟩
      | .space a b => .inr ⟨a, b⟩⟩
instance (g : List Str) (ps : List Piece) : Decidable (Announces g ps) :=
  decidable_of_iff (g ≠ [] ∧ TextLines g ∧ Pieces ps ∧ Announced (groupText g) (piecesSource ps) ∧ ∀ l ∈ g.head?.toList, ¬ str! "::newcol" <+: l)
    ⟨fun ⟨a, b, c, d, e⟩ => ⟨a, b, c, d, fun l h => e l (by simp [h])⟩, fun ⟨a, b, c, d, e⟩ => ⟨a, b, c, d, fun l h => e l (by simpa using h)⟩⟩
instance (V : Verbatim) : Decidable V.Ok := by
  cases V <;> unfold Verbatim.Ok <;> infer_instance
instance (n : Number) : Decidable n.Ok := by unfold Number.Ok; infer_instance
instance (W : Widths) : Decidable W.Ok := by cases W <;> unfold Widths.Ok <;> infer_instance
instance (r : Row) : Decidable r.Ok :=
  have : Decidable (r.cells ≠ []) := decidable_of_iff (r.cells.isEmpty = false) (by cases r.cells <;> simp)
  decidable_of_iff (r.bullet ∈ ['*', '+', '-'] ∧ r.cells ≠ [] ∧ (∀ c ∈ r.cells, Para c.lines c.pieces) ∧ ∀ l ∈ r.gap, isBlank l = true)
    ⟨fun ⟨a, b, c, d⟩ => ⟨a, b, c, d⟩, fun ⟨a, b, c, d⟩ => ⟨a, b, c, d⟩⟩
instance (T : Table) : Decidable T.Ok :=
  have : Decidable (T.rows ≠ []) := decidable_of_iff (T.rows.isEmpty = false) (by cases T.rows <;> simp)
  decidable_of_iff (T.dir.Ok ∧ T.dir.key = str! "list-table" ∧ T.dir.get (str! "widths") = T.widths.text ∧ T.widths.Ok ∧
    (T.gap ≠ [] ∧ ∀ l ∈ T.gap, isBlank l = true) ∧ T.bullet ∈ ['*', '+', '-'] ∧ T.rows ≠ [] ∧ ∀ r ∈ T.rows, r.Ok)
    ⟨fun ⟨a, b, c, d, e, f, g, h⟩ => ⟨a, b, c, d, e, f, g, h⟩, fun ⟨a, b, c, d, e, f, g, h⟩ => ⟨a, b, c, d, e, f, g, h⟩⟩
instance (c : Char) : Decidable (nameChar c) := by unfold nameChar; infer_instance
instance (t : Target) : Decidable t.Ok :=
  have : Decidable (∃ c w, t.first = c :: w ∧ c.isAlphanum = true) :=
    match h : t.first with
    | [] => isFalse fun ⟨_, _, e, _⟩ => by cases e
    | c :: w => decidable_of_iff (c.isAlphanum = true) ⟨fun e => ⟨c, w, rfl, e⟩, fun ⟨_, _, e, e'⟩ => by cases e; exact e'⟩
  decidable_of_iff ((∃ c w, t.first = c :: w ∧ c.isAlphanum = true) ∧ (∀ c ∈ t.first, nameChar c) ∧
      (∀ p ∈ t.rest, p.1 ∈ separators ∧ p.2 ≠ [] ∧ ∀ c ∈ p.2, nameChar c) ∧ (∀ p ∈ t.rest, p.1 = ':' → p.2.head? ≠ some ' ') ∧
      (2 ≤ t.final.length ∧ ∃ c, t.final.getLast? = some c ∧ c.isAlphanum = true) ∧ ∀ l ∈ t.gap, isBlank l = true)
    ⟨fun ⟨a, b, c, d, e, f⟩ => ⟨a, b, c, d, e, f⟩, fun ⟨a, b, c, d, e, f⟩ => ⟨a, b, c, d, e, f⟩⟩
instance (x : Flow) : Decidable x.Ok := by cases x <;> unfold Flow.Ok <;> infer_instance
instance (X : Part) : Decidable X.Ok := by
  cases X with
  | quiz d a gap es =>
    have : Decidable (es ≠ []) := decidable_of_iff (es.isEmpty = false) (by cases es <;> simp)
    unfold Part.Ok; infer_instance
  | literal g ps gap V => unfold Part.Ok; infer_instance
  | bare gap V => unfold Part.Ok; infer_instance
  | table T => unfold Part.Ok; infer_instance
  | anchored ts L gap =>
    have : Decidable (ts ≠ []) := decidable_of_iff (ts.isEmpty = false) (by cases ts <;> simp)
    unfold Part.Ok; infer_instance
  | anchoredText ts g ps gap =>
    have : Decidable (ts ≠ []) := decidable_of_iff (ts.isEmpty = false) (by cases ts <;> simp)
    unfold Part.Ok; infer_instance
  | columns d gap contents =>
    have : Decidable (contents ≠ []) := decidable_of_iff (contents.isEmpty = false) (by cases contents <;> simp)
    unfold Part.Ok; infer_instance
instance (X : Part) : Decidable X.Bare := by cases X <;> unfold Part.Bare <;> infer_instance
instance (X : Part) : Decidable X.Tidy := by cases X <;> unfold Part.Tidy <;> infer_instance

instance (B : Blocks) : Decidable (B = .nil) := by
  cases B
  · exact isTrue rfl
  all_goals exact isFalse (by simp)

instance (I : Items) : Decidable (I = .nil) := by
  cases I
  · exact isTrue rfl
  all_goals exact isFalse (by simp)

instance (D : Defs) : Decidable (D = .nil) := by
  cases D
  · exact isTrue rfl
  all_goals exact isFalse (by simp)

instance (m m' : Tag) : Decidable (m.next m') := by
  cases m <;> cases m' <;> unfold Tag.next <;> infer_instance

instance (m m' : Tag) : Decidable (m.joins m') := by
  cases m <;> cases m' <;> first | (unfold Tag.joins; infer_instance) | (unfold Tag.joins; simp only; infer_instance)

instance (m : Tag) : Decidable m.opens := by
  cases m <;> unfold Tag.opens <;> infer_instance

instance (c : Counter) : Decidable c.Ok := by
  unfold Counter.Ok
  cases c.kind <;> simp only <;> infer_instance

instance (m : Tag) : Decidable m.numbered := by
  cases m <;> unfold Tag.numbered <;> infer_instance

instance (g : List Str) (m : Tag) : Decidable (m.Ok g) := by
  cases m with
  | bullet b => exact inferInstanceAs (Decidable (b ∈ ['*', '+', '-']))
  | number d c => exact inferInstanceAs (Decidable c.Ok)
  | field name w =>
    have : Decidable (name ≠ []) := decidable_of_iff (name.isEmpty = false) (by cases name <;> simp)
    unfold Tag.Ok; infer_instance

instance (m m' : Tag) : Decidable (m.signs m') := by
  cases m <;> cases m' <;> unfold Tag.signs <;> infer_instance

/-- A statement about a mark that may be there. -/
def decidableTag (o : Option Tag) (P : Tag → Prop) [∀ m, Decidable (P m)] : Decidable (∀ m, o = some m → P m) :=
  match o with
  | none => isTrue (by simp)
  | some m => decidable_of_iff (P m) (by simp)

instance (a b : Option Tag) : Decidable (parted a b) := by
  have h1 : ∀ m : Tag, Decidable (∀ m', b = some m' → ¬ m.joins m') := fun m => decidableTag b _
  have := decidableTag a (fun m => ∀ m', b = some m' → ¬ m.joins m')
  exact decidable_of_iff (∀ m, a = some m → ∀ m', b = some m' → ¬ m.joins m') ⟨fun h m m' hm => h m hm m', fun h m hm m' => h m m' hm⟩

/-- Marks that follow each other are recognised. -/
def Items.chain : (I : Items) → Decidable I.chained
  | .nil => isTrue trivial
  | .item m _ _ _ _ rest =>
    have := rest.chain
    have := decidableTag rest.first (fun m' => m.next m')
    inferInstanceAs (Decidable ((∀ m', rest.first = some m' → m.next m') ∧ rest.chained))

instance (I : Items) : Decidable I.chained := I.chain

instance (I : Items) : Decidable I.numbered :=
  match h : I.last with
  | none => isFalse (by rintro ⟨m, hm, _⟩; rw [h] at hm; cases hm)
  | some m => decidable_of_iff m.numbered ⟨fun hm => ⟨m, h, hm⟩, fun ⟨m', h1, h2⟩ => by rw [h] at h1; cases h1; exact h2⟩

instance (s : Option Signature) : Decidable (s = none) := by
  cases s
  · exact isTrue rfl
  · exact isFalse (by simp)

mutual
/-- Tidy blocks are recognised. -/
def Blocks.tidy : (B : Blocks) → Decidable B.Tidy
  | .nil => isTrue trivial
  | .para _ _ gap rest =>
    have := rest.tidy
    inferInstanceAs (Decidable ((∀ l ∈ gap, l = []) ∧ rest.Tidy))
  | .list items rest =>
    have := rest.tidy
    have := items.tidy
    inferInstanceAs (Decidable (items.Tidy ∧ rest.Tidy))
  | .leaf L gap rest =>
    have := rest.tidy
    inferInstanceAs (Decidable (L.Tidy ∧ (∀ l ∈ gap, l = []) ∧ rest.Tidy))
  | .box .. => isFalse id
  | .classed .. => isFalse id
  | .anchor .. => isFalse id
  | .part X rest =>
    have := rest.tidy
    inferInstanceAs (Decidable (X.Tidy ∧ rest.Tidy))
  | .quote _ body sign rest =>
    have := rest.tidy
    have := body.tidy
    inferInstanceAs (Decidable (body.Tidy ∧ sign = none ∧ rest.Tidy))
  | .defs .. => isFalse id
  | .note .. => isFalse id
  | .aside .. => isFalse id
/-- Tidy items are recognised. -/
def Items.tidy : (I : Items) → Decidable I.Tidy
  | .nil => isTrue trivial
  | .item _ _ _ gap body rest =>
    have := rest.tidy
    have := body.tidy
    inferInstanceAs (Decidable ((∀ l ∈ gap, l = []) ∧ body.Tidy ∧ rest.Tidy))
end

instance (B : Blocks) : Decidable B.Tidy := B.tidy

instance (B : Blocks) : Decidable B.quoted := by
  cases B <;> unfold Blocks.quoted <;> infer_instance

instance (l : Str) : Decidable (Dashed l) := by unfold Dashed; infer_instance

instance (g : List Str) : Decidable (UndashedLines g) :=
  decidable_of_iff (∀ l ∈ g.head?.toList, ¬ Dashed l) ⟨fun h l hl => h l (by simp [hl]), fun h l hl => h l (by simpa using hl)⟩

instance (X : Part) : Decidable X.Undashed := by
  cases X <;> unfold Part.Undashed <;> infer_instance

instance (D : Defs) : Decidable D.Undashed := by
  cases D <;> unfold Defs.Undashed <;> infer_instance

/-- Blocks without paragraphs that start like an attribution are recognised. -/
def Blocks.undashed : (B : Blocks) → Decidable B.Undashed
  | .nil => isTrue trivial
  | .para g _ _ rest =>
    have := rest.undashed
    inferInstanceAs (Decidable (UndashedLines g ∧ rest.Undashed))
  | .list _ rest => rest.undashed
  | .leaf _ _ rest => rest.undashed
  | .box _ _ _ rest => rest.undashed
  | .classed _ _ _ rest => rest.undashed
  | .anchor _ _ _ _ rest => rest.undashed
  | .part X rest =>
    have := rest.undashed
    inferInstanceAs (Decidable (X.Undashed ∧ rest.Undashed))
  | .quote _ _ _ rest => rest.undashed
  | .defs D rest =>
    have := rest.undashed
    inferInstanceAs (Decidable (D.Undashed ∧ rest.Undashed))
  | .note _ _ _ _ _ rest => rest.undashed
  | .aside _ _ _ _ _ rest => rest.undashed

instance (B : Blocks) : Decidable B.Undashed := B.undashed

instance (s : Signature) : Decidable s.Ok :=
  decidable_of_iff ((s.dash = str! "--" ∨ s.dash = str! "—") ∧ (∃ c, s.text.head? = some c ∧ isWs c = false) ∧
    (s.dash = str! "--" → s.space = 0 → s.text.head? ≠ some '-') ∧ '\n' ∉ s.text ∧ (∀ l ∈ s.more, TextLine l) ∧
    ∀ l ∈ s.after, isBlank l = true)
    ⟨fun ⟨a, b, c, d, e, f⟩ => ⟨a, b, c, d, e, f⟩, fun ⟨a, b, c, d, e, f⟩ => ⟨a, b, c, d, e, f⟩⟩

instance (ls : List Str) : Decidable (BlankLast ls) :=
  match h : ls.getLast? with
  | none => isTrue (by intro l hl; rw [h] at hl; cases hl)
  | some l => decidable_of_iff (isBlank l = true) ⟨fun hb l' hl => by rw [h] at hl; cases hl; exact hb, fun hb => hb l h⟩

instance (B : Blocks) : Decidable B.spaced := by
  cases B <;> unfold Blocks.spaced <;> infer_instance

instance (t : Term) : Decidable t.Ok :=
  have : Decidable (Unsplit t.name) := by unfold Unsplit; infer_instance
  have : ∀ c, Decidable (Unsplit c) := fun c => by unfold Unsplit; infer_instance
  decidable_of_iff (FirstLine t.text ∧ ¬ str! "::newcol" <+: t.text ∧ Unsplit t.name ∧ ∀ c ∈ t.classes, Unsplit c ∧ isBlank c = false)
    ⟨fun ⟨a, b, c, d⟩ => ⟨a, b, c, d⟩, fun ⟨a, b, c, d⟩ => ⟨a, b, c, d⟩⟩

instance (N : Note) (P : Prop) [Decidable P] : Decidable (N.Ok P) :=
  have : Decidable (∃ a t, N.label = a :: t ∧ a.isAlpha = true ∧ NameTail t) :=
    match h : N.label with
    | [] => isFalse (by simp)
    | a :: t => decidable_of_iff (a.isAlpha = true ∧ NameTail t) ⟨fun h => ⟨a, t, rfl, h.1, h.2⟩, fun ⟨_, _, e, h⟩ => by cases e; exact h⟩
  decidable_of_iff ((N.foot = true → N.label ≠ [] ∧ ∀ c ∈ N.label, c.isDigit = true) ∧
    (N.foot = false → ∃ a t, N.label = a :: t ∧ a.isAlpha = true ∧ NameTail t) ∧ 0 < N.wide ∧ (P → N.wide = N.text.length))
    ⟨fun ⟨a, b, c, d⟩ => ⟨a, b, c, d⟩, fun ⟨a, b, c, d⟩ => ⟨a, b, c, d⟩⟩

instance (name : Str) (g : List Str) : Decidable (AsideOk name g) :=
  decidable_of_iff ((fromTable notes (toLower name)).isSome = true ∧ DirName name ∧ ∀ l ∈ g.tail, Snug l ∧ ¬ FieldMarked l)
    ⟨fun ⟨a, b, c⟩ => ⟨a, b, c⟩, fun ⟨a, b, c⟩ => ⟨a, b, c⟩⟩

mutual
/-- Well-formed blocks are recognised. -/
def Blocks.decide : (B : Blocks) → Decidable B.Ok
  | .nil => isTrue trivial
  | .para g ps gap rest =>
    have := rest.decide
    inferInstanceAs (Decidable (Para g ps ∧ (∀ l ∈ gap, isBlank l = true) ∧ (gap = [] → rest = .nil) ∧ rest.Ok))
  | .list items rest =>
    have := rest.decide
    have := items.decide
    have := decidableTag items.first Tag.opens
    inferInstanceAs (Decidable (items ≠ .nil ∧ items.Ok ∧ (items.chained ∧ ∀ m, items.first = some m → m.opens) ∧ parted items.last rest.first ∧
      (items.numbered → rest = .nil ∨ BlankLast (items.lines 0)) ∧ ¬ rest.quoted ∧ rest.Ok))
  | .leaf L gap rest =>
    have := rest.decide
    inferInstanceAs (Decidable (L.Ok ∧ L.GapOk gap ∧ ¬ rest.quoted ∧ rest.Ok))
  | .box X gap body rest =>
    have := rest.decide
    have := body.decide
    inferInstanceAs (Decidable (X.Ok ∧ gap ≠ [] ∧ (∀ l ∈ gap, isBlank l = true) ∧ (body = .nil → X.apart = false ∧ X.dir.opts ≠ []) ∧ (X.apart = true → body.Tidy) ∧
      ¬ body.quoted ∧ body.Ok ∧ ¬ rest.quoted ∧ rest.Ok))
  | .classed d gap body rest =>
    have := rest.decide
    have := body.decide
    have : Decidable (body.first = none) := decidable_of_iff (body.first.isNone = true) (by cases body.first <;> simp)
    inferInstanceAs (Decidable (d.Ok ∧ d.key = str! "class" ∧ d.arg ≠ [] ∧ d.opts = [] ∧ gap ≠ [] ∧ (∀ l ∈ gap, isBlank l = true) ∧
      body ≠ .nil ∧ body.Tidy ∧ body.first = none ∧ ¬ body.quoted ∧ body.Ok ∧ ¬ rest.quoted ∧ rest.Ok))
  | .anchor ts X gap body rest =>
    have := rest.decide
    have := body.decide
    have : Decidable (ts ≠ []) := decidable_of_iff (ts.isEmpty = false) (by cases ts <;> simp)
    inferInstanceAs (Decidable ((ts ≠ [] ∧ ∀ t ∈ ts, t.Ok) ∧ X.Ok ∧ X.apart = false ∧ gap ≠ [] ∧ (∀ l ∈ gap, isBlank l = true) ∧
      (body = .nil → X.dir.opts ≠ []) ∧ ¬ body.quoted ∧ body.Ok ∧ ¬ rest.quoted ∧ rest.Ok))
  | .part X rest =>
    have := rest.decide
    inferInstanceAs (Decidable (X.Ok ∧ ¬ rest.quoted ∧ rest.Ok))
  | .quote _ body sign rest =>
    have := rest.decide
    have := body.decide
    have : Decidable (∀ s, sign = some s → s.Ok ∧ BlankLast (body.lines 0) ∧ (s.after = [] → rest = .nil)) := by
      cases sign with
      | none => exact isTrue (by simp)
      | some t => exact decidable_of_iff (t.Ok ∧ BlankLast (body.lines 0) ∧ (t.after = [] → rest = .nil)) (by simp)
    inferInstanceAs (Decidable (body ≠ .nil ∧ ¬ body.quoted ∧ body.Undashed ∧ body.Ok ∧ (sign = none → ¬ rest.quoted) ∧
      (∀ s, sign = some s → s.Ok ∧ BlankLast (body.lines 0) ∧ (s.after = [] → rest = .nil)) ∧ rest.Ok))
  | .defs D rest =>
    have := rest.decide
    have := D.decide
    inferInstanceAs (Decidable (D ≠ .nil ∧ D.Ok ∧ rest.spaced ∧ rest.Ok))
  | .note N g ps gap body rest =>
    have := rest.decide
    have := body.decide
    inferInstanceAs (Decidable (N.Ok (g.length = 1 ∧ body = .nil) ∧ Para g ps ∧ (∀ l ∈ gap, isBlank l = true) ∧ (gap = [] → body = .nil) ∧
      ¬ body.quoted ∧ body.Ok ∧ ¬ rest.quoted ∧ rest.Ok))
  | .aside name g ps gap body rest =>
    have := rest.decide
    have := body.decide
    inferInstanceAs (Decidable (AsideOk name g ∧ Para g ps ∧ gap ≠ [] ∧ (∀ l ∈ gap, l = []) ∧ (g.length = 1 → body ≠ .nil) ∧
      body.Tidy ∧ ¬ body.quoted ∧ body.Ok ∧ ¬ rest.quoted ∧ rest.Ok))
/-- Well-formed items are recognised. -/
def Items.decide : (I : Items) → Decidable I.Ok
  | .nil => isTrue trivial
  | .item m g ps gap body rest =>
    have := rest.decide
    have := body.decide
    have := decidableTag rest.first (fun m' => m.signs m')
    inferInstanceAs (Decidable (m.Ok g ∧ Para g ps ∧ (∀ l ∈ gap, isBlank l = true) ∧ (gap = [] → body = .nil) ∧
      (m.numbered → (gap = [] → g.length = 1 → ∀ m', rest.first = some m' → m.signs m') ∧ body.Tidy) ∧ body.Ok ∧ rest.Ok))
/-- Well-formed definition lists are recognised. -/
def Defs.decide : (D : Defs) → Decidable D.Ok
  | .nil => isTrue trivial
  | .term t body rest =>
    have := rest.decide
    have := body.decide
    inferInstanceAs (Decidable (t.Ok ∧ body ≠ .nil ∧ ¬ body.quoted ∧ body.Ok ∧ rest.Ok))
end

instance (B : Blocks) : Decidable B.Ok := B.decide
instance (D : Defs) : Decidable D.Ok := D.decide
instance (ls : List Str) : Decidable (BlankBefore ls) :=
  match h : ls.getLast? with
  | none => isFalse fun ⟨l, e, _⟩ => by rw [h] at e; cases e
  | some l => decidable_of_iff (isBlank l = true) ⟨fun e => ⟨l, h, e⟩, fun ⟨l', e, e'⟩ => by rw [h] at e; cases e; exact e'⟩
instance decidableRuled : (before : List Str) → (more : List (Rule × Blocks)) → Decidable (ruledOk before more)
  | _, [] => isTrue trivial
  | before, x :: more =>
    have := decidableRuled (x.1.gap ++ x.2.lines 0) more
    inferInstanceAs (Decidable (BlankBefore before ∧ (x.1.char ∈ adornments ∧ x.1.char ≠ ':' ∧ 4 ≤ x.1.len) ∧
      (x.1.gap ≠ [] ∧ ∀ l ∈ x.1.gap, isBlank l = true) ∧ x.2.Ok ∧ ruledOk (x.1.gap ++ x.2.lines 0) more))
instance (s : Sec) : Decidable s.Ok := by unfold Sec.Ok; infer_instance
instance decidableGaps : (before : List Str) → (secs : List Sec) → Decidable (gapsBefore before secs)
  | _, [] => isTrue trivial
  | before, s :: secs =>
    have := decidableGaps (tailLines (s.body.lines 0) s.more) secs
    inferInstanceAs (Decidable (BlankLast before ∧ gapsBefore (tailLines (s.body.lines 0) s.more) secs))

instance (p : Paper) : Decidable p.Ok := by unfold Paper.Ok; infer_instance

end Rustla.Spec
