import Verif.Lemmas.InlineSteps
import Verif.Model.Parser
/-! # Post-conditions of transition functions -/
namespace Rustla
open Relation

/-- States with a table of transitions that the parser enters. -/
def State.live : State → Bool
  | .Section | .ListItem | .Footnote | .Citation | .Admonition | .Figure | .Body | .BlockQuote | .BulletList
  | .DefinitionList | .EnumeratedList | .FieldList | .LiteralBlock | .ListTable | .AplusMultiCol | .AplusQuestionnaire =>
    true
  | _ => false

/-- The cursor has not moved back and the document has been built further. -/
structure Fwd (s s' : PS) : Prop where
  offset : s.cursor.offset ≤ s'.cursor.offset
  baseline : s'.cursor.baseline = s.cursor.baseline
  steps : Steps s.doc s'.doc

theorem Fwd.refl (s : PS) : Fwd s s := ⟨Nat.le_refl _, rfl, ReflTransGen.refl⟩

theorem Fwd.trans {a b c : PS} (h1 : Fwd a b) (h2 : Fwd b c) : Fwd a c :=
  ⟨Nat.le_trans h1.offset h2.offset, h2.baseline.trans h1.baseline, h1.steps.trans h2.steps⟩

theorem steps_loose {d d' : DocTree} (h : Steps d d') : LooseSteps d d' := ReflTransGen.mono (fun _ _ => Loose.build) _ _ h

theorem quiet_steps {d d' : DocTree} (h : ReflTransGen Quiet d d') : Steps d d' :=
  ReflTransGen.mono (fun _ _ => Build.quiet) _ _ h

/-- What holds after a computation started in the given state. -/
def PostAt {α : Type} (s : PS) (x : P α) (Q : α → Prop) : Prop :=
  (∀ a s', x s = .ok a s' → Fwd s s' ∧ Q a) ∧ (∀ d, x s = .fail d → LooseSteps s.doc d)

/-- What holds after a computation. -/
def Post {α : Type} (x : P α) (Q : α → Prop) : Prop := ∀ s, PostAt s x Q

theorem bind_ok {α β : Type} {x : P α} {f : α → P β} {s s'' : PS} {b : β} (h : (x >>= f) s = .ok b s'') :
    ∃ a s', x s = .ok a s' ∧ f a s' = .ok b s'' := by
  change P.bind x f s = _ at h
  unfold P.bind at h
  split at h
  · exact ⟨_, _, by assumption, h⟩
  · cases h
  · cases h

theorem bind_fail {α β : Type} {x : P α} {f : α → P β} {s : PS} {d : DocTree} (h : (x >>= f) s = .fail d) :
    x s = .fail d ∨ ∃ a s', x s = .ok a s' ∧ f a s' = .fail d := by
  change P.bind x f s = _ at h
  unfold P.bind at h
  split at h
  · exact .inr ⟨_, _, by assumption, h⟩
  · rename_i heq; cases h; exact .inl heq
  · cases h

theorem PostAt.bind {α β : Type} {x : P α} {f : α → P β} {R : α → Prop} {Q : β → Prop} {s : PS} (hx : PostAt s x R)
    (hf : ∀ a s', x s = .ok a s' → R a → PostAt s' (f a) Q) : PostAt s (x >>= f) Q := by
  constructor
  · intro b s'' h
    obtain ⟨a, s', h1, h2⟩ := bind_ok h
    obtain ⟨e1, e2⟩ := hx.1 a s' h1
    obtain ⟨e3, e4⟩ := (hf a s' h1 e2).1 b s'' h2
    exact ⟨e1.trans e3, e4⟩
  · intro d h
    rcases bind_fail h with h | ⟨a, s', h1, h2⟩
    · exact hx.2 d h
    · obtain ⟨e1, e2⟩ := hx.1 a s' h1
      exact (steps_loose e1.steps).trans ((hf a s' h1 e2).2 d h2)

theorem Post.bind {α β : Type} {x : P α} {f : α → P β} {R : α → Prop} {Q : β → Prop} (hx : Post x R)
    (hf : ∀ a, R a → Post (f a) Q) : Post (x >>= f) Q :=
  fun s => (hx s).bind fun a s' _ ha => hf a ha s'

theorem Post.pure {α : Type} {a : α} {Q : α → Prop} (h : Q a) : Post (pure a : P α) Q := by
  intro s
  refine ⟨fun b s' e => ?_, fun d e => ?_⟩
  · cases e; exact ⟨Fwd.refl s, h⟩
  · cases e

theorem Post.weaken {α : Type} {x : P α} {R Q : α → Prop} (hx : Post x R) (h : ∀ a, R a → Q a) : Post x Q :=
  fun s => ⟨fun a s' e => ⟨((hx s).1 a s' e).1, h a ((hx s).1 a s' e).2⟩, (hx s).2⟩

theorem Post.lift {α : Type} (r : Run α) : Post (P.lift r) (fun a => r = .ok a) := by
  intro s
  unfold P.lift
  refine ⟨fun b s' e => ?_, fun d e => ?_⟩
  · beta_reduce at e; split at e
    · cases e; exact ⟨Fwd.refl s, rfl⟩
    · cases e
  · beta_reduce at e; split at e <;> cases e

theorem Post.doc : Post P.doc (fun _ => True) :=
  fun s => ⟨fun _ _ e => by cases e; exact ⟨Fwd.refl s, trivial⟩, fun _ e => by cases e⟩

theorem Post.cursor : Post P.cursor (fun _ => True) :=
  fun s => ⟨fun _ _ e => by cases e; exact ⟨Fwd.refl s, trivial⟩, fun _ e => by cases e⟩

theorem Post.offset : Post P.offset (fun _ => True) :=
  fun s => ⟨fun _ _ e => by cases e; exact ⟨Fwd.refl s, trivial⟩, fun _ e => by cases e⟩

theorem Post.level : Post P.level (fun _ => True) :=
  fun s => ⟨fun _ _ e => by cases e; exact ⟨Fwd.refl s, trivial⟩, fun _ e => by cases e⟩

theorem Post.setLevel (n : Nat) : Post (P.setLevel n) (fun _ => True) :=
  fun s => ⟨fun _ _ e => by cases e; exact ⟨⟨Nat.le_refl _, rfl, ReflTransGen.refl⟩, trivial⟩, fun _ e => by cases e⟩

theorem Post.failed {α : Type} {Q : α → Prop} : Post (P.failed : P α) Q :=
  fun _ => ⟨fun _ _ e => (by cases e), fun _ e => (by cases e; exact ReflTransGen.refl)⟩

theorem Post.advance (n : Nat) : Post (P.advance n) (fun _ => True) :=
  fun _ => ⟨fun _ _ e => by cases e; exact ⟨⟨Nat.le_add_right .., rfl, ReflTransGen.refl⟩, trivial⟩, fun _ e => by cases e⟩

theorem Post.skipEmpty (src : List Str) : Post (P.skipEmpty src) (fun _ => True) :=
  fun _ => ⟨fun _ _ e => by cases e; exact ⟨⟨Nat.le_add_right .., rfl, ReflTransGen.refl⟩, trivial⟩, fun _ e => by cases e⟩

theorem Post.required {α : Type} (x : Option α) : Post (P.required x) (fun a => x = some a) := by
  cases x with
  | none => exact Post.failed
  | some a => exact Post.pure rfl

theorem orFail_ok {r : Run (Bool × DocTree)} {s s' : PS} {u : Unit} (h : P.orFail r s = .ok u s') :
    ∃ d, r = .ok (true, d) ∧ s' = { s with doc := d } := by
  unfold P.orFail at h
  split at h
  · cases h
  · cases h; exact ⟨_, rfl, rfl⟩
  · cases h

theorem orFail_fail {r : Run (Bool × DocTree)} {s : PS} {d : DocTree} (h : P.orFail r s = .fail d) :
    r = .ok (false, d) := by
  unfold P.orFail at h
  split at h
  · cases h
  · cases h
  · cases h; rfl

theorem plainData_kind {n : NodeType} (h : plainData n = true) : plainKind n.kind = true := by
  unfold plainData at h; rw [Bool.and_eq_true] at h; exact h.1

theorem plainData_ne_section {n : NodeType} (h : plainData n = true) : n.kind ≠ .Section := by
  intro hk; have := plainData_kind h; rw [hk] at this; cases this

theorem Post.pushFocus {data : NodeType} (hk : plainData data = true) : Post (P.pushFocus data) (fun _ => True) := by
  intro s
  refine ⟨fun a s' e => ?_, fun d e => ?_⟩
  · obtain ⟨d, h, rfl⟩ := orFail_ok e
    exact ⟨⟨Nat.le_refl _, rfl, ReflTransGen.single (.pushFocus data hk h)⟩, trivial⟩
  · exact ReflTransGen.single (.refused data (plainData_ne_section hk) (orFail_fail e))

theorem Post.push {data : NodeType} (hk : plainData data = true) : Post (P.push data) (fun _ => True) := by
  intro s
  refine ⟨fun a s' e => ?_, fun d e => ?_⟩
  · obtain ⟨d, h, rfl⟩ := orFail_ok e
    exact ⟨⟨Nat.le_refl _, rfl, ReflTransGen.single (.push data hk h)⟩, trivial⟩
  · exact ReflTransGen.single (.build (.push data hk (orFail_fail e)))

theorem Post.tryPush {data : NodeType} (hk : plainData data = true) : Post (P.tryPush data) (fun _ => True) := by
  intro s
  unfold P.tryPush
  refine ⟨fun a s' e => ?_, fun d e => ?_⟩
  · beta_reduce at e; split at e
    · cases e
    · rename_i b d h
      cases e
      exact ⟨⟨Nat.le_refl _, rfl, ReflTransGen.single (.push data hk h)⟩, trivial⟩
  · beta_reduce at e; split at e <;> cases e

theorem Post.pushNode {data : NodeType}
    (hk : data.kind = .ExternalHyperlinkTarget ∨ data.kind = .IndirectHyperlinkTarget) :
    Post (P.pushNode data) (fun _ => True) := by
  intro s
  refine ⟨fun a s' e => ?_, fun d e => ?_⟩
  · obtain ⟨d, h, rfl⟩ := orFail_ok e
    exact ⟨⟨Nat.le_refl _, rfl, ReflTransGen.single (.pushNode data hk h)⟩, trivial⟩
  · exact ReflTransGen.single (.refusedNode data (by rcases hk with h | h <;> rw [h] <;> simp) (orFail_fail e))

theorem Post.pushAll {nodes : List NodeType} (h : ∀ n ∈ nodes, plainData n = true) :
    Post (P.pushAll nodes) (fun _ => True) := by
  induction nodes with
  | nil => exact Post.pure trivial
  | cons n ns ih =>
    exact Post.bind (Post.push (h n (List.mem_cons_self ..))) fun _ _ =>
      ih fun m hm => h m (List.mem_cons_of_mem _ hm)

theorem Post.parent : Post P.parent (fun _ => True) := by
  intro s
  unfold P.parent
  refine ⟨fun a s' e => ?_, fun d e => ?_⟩
  · beta_reduce at e; split at e
    · cases e
    · rename_i d h
      cases e
      exact ⟨⟨Nat.le_refl _, rfl, ReflTransGen.single (.parent h)⟩, trivial⟩
  · beta_reduce at e; split at e <;> cases e

theorem Post.internalTarget (l : Str) : Post (P.internalTarget l) (fun _ => True) :=
  fun _ => ⟨fun _ _ e => by
    cases e; exact ⟨⟨Nat.le_refl _, rfl, ReflTransGen.single (.quiet (.internalTarget _ l))⟩, trivial⟩,
    fun _ e => by cases e⟩

theorem Post.anonTarget : Post P.anonTarget (fun _ => True) :=
  fun _ => ⟨fun _ _ e => by
    cases e; exact ⟨⟨Nat.le_refl _, rfl, ReflTransGen.single (.anonTarget _)⟩, trivial⟩,
    fun _ e => by cases e⟩

theorem Post.textBlock (E : Env) (a : Option Nat) : Post (P.textBlock E a) (fun _ => True) := by
  intro s
  unfold P.textBlock
  refine ⟨fun a s' e => ?_, fun d e => ?_⟩
  · beta_reduce at e; split at e <;> cases e
    exact ⟨Fwd.refl s, trivial⟩
  · beta_reduce at e; split at e <;> cases e

theorem Post.indentedBlock (E : Env) (u : Bool) (b f : Option Nat) (force : Bool) :
    Post (P.indentedBlock E u b f force) (fun _ => True) := by
  intro s
  unfold P.indentedBlock
  refine ⟨fun a s' e => ?_, fun d e => ?_⟩
  · beta_reduce at e; split at e <;> cases e
    exact ⟨Fwd.refl s, trivial⟩
  · beta_reduce at e; split at e <;> cases e
    exact ReflTransGen.refl

theorem Post.inlineDoc (t : Str) : Post (P.inlineDoc t) (fun ns => ∀ n ∈ ns, inlineOutput n.kind = true) := by
  intro s
  unfold P.inlineDoc
  refine ⟨fun a s' e => ?_, fun d e => ?_⟩
  · beta_reduce at e; split at e
    · cases e
    · rename_i nodes d c h
      cases e
      obtain ⟨h1, h2, h3, h4⟩ := inlineParse_good h
      refine ⟨⟨h3, h4, ?_⟩, h1⟩
      cases d with
      | none => exact ReflTransGen.refl
      | some d => exact quiet_steps h2
  · beta_reduce at e; split at e <;> cases e

theorem Post.inlineNone (t : Str) : Post (P.inlineNone t) (fun ns => ∀ n ∈ ns, inlineOutput n.kind = true) := by
  intro s
  unfold P.inlineNone
  refine ⟨fun a s' e => ?_, fun d e => ?_⟩
  · beta_reduce at e; split at e
    · cases e
    · rename_i nodes d c h
      cases e
      obtain ⟨h1, h2, h3, h4⟩ := inlineParse_good h
      exact ⟨⟨h3, h4, ReflTransGen.refl⟩, h1⟩
  · beta_reduce at e; split at e <;> cases e

theorem args_cursor (src : List Str) (c : LineCursor) (b f : Nat) (e : Bool) :
    c.offset ≤ (scanDirectiveArguments src c b f e).2.offset ∧
      (scanDirectiveArguments src c b f e).2.baseline = c.baseline := by
  unfold scanDirectiveArguments
  simp only
  split
  · exact ⟨by simp [LineCursor.incrementBy]; omega, rfl⟩
  · split
    · exact ⟨Nat.le_refl _, rfl⟩
    · split
      · exact ⟨Nat.le_refl _, rfl⟩
      · exact ⟨by simp [LineCursor.incrementBy], rfl⟩

theorem opts_cursor (src : List Str) (c : LineCursor) (b : Nat) :
    c.offset ≤ (scanDirectiveOptions src c b).2.offset ∧
      (scanDirectiveOptions src c b).2.baseline = c.baseline := by
  unfold scanDirectiveOptions
  simp only
  split
  · exact ⟨Nat.le_refl _, rfl⟩
  · split
    · exact ⟨by simp [LineCursor.incrementBy]; omega, rfl⟩
    · exact ⟨by simp [LineCursor.incrementBy], rfl⟩

theorem Post.arguments (E : Env) (b f : Nat) (e : Bool) : Post (P.arguments E b f e) (fun _ => True) :=
  fun s => ⟨fun _ _ h => by
    cases h
    exact ⟨⟨(args_cursor E.src s.cursor b f e).1, (args_cursor E.src s.cursor b f e).2, ReflTransGen.refl⟩, trivial⟩,
    fun _ h => by cases h⟩

theorem Post.options (E : Env) (b : Nat) : Post (P.options E b) (fun _ => True) :=
  fun s => ⟨fun _ _ h => by
    cases h
    exact ⟨⟨(opts_cursor E.src s.cursor b).1, (opts_cursor E.src s.cursor b).2, ReflTransGen.refl⟩, trivial⟩,
    fun _ h => by cases h⟩

/-- What is known of the parser for nested blocks. -/
def NestOk (E : Env) : Prop :=
  ∀ lines doc base line st level r, st.live = true → E.nested lines doc base line st level = .ok r →
    match r with
    | .eof d stack => Steps doc d ∧ ∀ s ∈ stack, s.live = true
    | .emptyStateStack d stack => Steps doc d ∧ ∀ s ∈ stack, s.live = true
    | .failure d => LooseSteps doc d

theorem Post.nest {E : Env} (hE : NestOk E) (lines : List Str) (base : Nat) {st : State} (hs : st.live = true) :
    Post (P.nest E lines base st) (fun stack => ∀ s ∈ stack, s.live = true) := by
  intro s
  unfold P.nest
  refine ⟨fun a s' e => ?_, fun d e => ?_⟩
  · beta_reduce at e; split at e <;> cases e
    · rename_i h; have := hE _ _ _ _ _ _ _ hs h; exact ⟨⟨Nat.le_refl _, rfl, this.1⟩, this.2⟩
    · rename_i h; have := hE _ _ _ _ _ _ _ hs h; exact ⟨⟨Nat.le_refl _, rfl, this.1⟩, this.2⟩
  · beta_reduce at e; split at e <;> cases e
    rename_i h
    exact hE _ _ _ _ _ _ _ hs h

theorem Post.ite {α : Type} {c : Prop} [Decidable c] {x y : P α} {Q : α → Prop} (hx : c → Post x Q) (hy : ¬ c → Post y Q) :
    Post (if c then x else y) Q := by
  split
  · exact hx ‹_›
  · exact hy ‹_›

/-- Pushed states are live. -/
def MovesOk (a : Moves) : Prop := ∀ sts, a.1 = .push sts → ∀ s ∈ sts, s.live = true

theorem movesOk_pop (l : LineAdvance) : MovesOk (.pop, l) := fun _ h => by cases h
theorem movesOk_neither (l : LineAdvance) : MovesOk (.neither, l) := fun _ h => by cases h
theorem movesOk_push {sts : List State} (h : ∀ s ∈ sts, s.live = true) (l : LineAdvance) : MovesOk (.push sts, l) :=
  fun _ e => by cases e; exact h
theorem movesOk_one {st : State} (h : st.live = true) (l : LineAdvance) : MovesOk (.push [st], l) :=
  movesOk_push (by simpa using h) l

/-! ## Additions to the focused node together with a new child -/

/-- `x` is run after the data of the focused node have been changed by `f`. -/
def Owed {α : Type} (f : NodeType → NodeType) (x : P α) (Q : α → Prop) : Prop :=
  ∀ s : PS, (∀ a s', x { s with doc := s.doc.setNodeData (f s.doc.sharedData) } = .ok a s' → Fwd s s' ∧ Q a) ∧
    (∀ d, x { s with doc := s.doc.setNodeData (f s.doc.sharedData) } = .fail d → LooseSteps s.doc d)

theorem Owed.intro {α : Type} {f : NodeType → NodeType} {k : Unit → P α} {Q : α → Prop} (h : Owed f (k ()) Q) :
    Post (P.mapData f >>= k) Q := fun s => h s

/-- The computation moves the cursor at most. -/
def Still {α : Type} (x : P α) : Prop :=
  ∀ s, (∀ a s', x s = .ok a s' → s'.doc = s.doc ∧ s.cursor.offset ≤ s'.cursor.offset ∧
    s'.cursor.baseline = s.cursor.baseline) ∧ (∀ d, x s = .fail d → d = s.doc)

theorem still_options (E : Env) (b : Nat) : Still (P.options E b) :=
  fun s => ⟨fun _ _ h => by cases h; exact ⟨rfl, opts_cursor E.src s.cursor b⟩, fun _ h => by cases h⟩

theorem still_skipEmpty (src : List Str) : Still (P.skipEmpty src) :=
  fun _ => ⟨fun _ _ h => by cases h; exact ⟨rfl, Nat.le_add_right .., rfl⟩, fun _ h => by cases h⟩

theorem still_required {α : Type} (x : Option α) : Still (P.required x) := by
  cases x with
  | none => exact fun _ => ⟨fun _ _ h => (by cases h), fun _ h => (by cases h; rfl)⟩
  | some a => exact fun _ => ⟨fun _ _ h => by cases h; exact ⟨rfl, Nat.le_refl _, rfl⟩, fun _ h => by cases h⟩

/-- The change keeps the kind, and sections as they are. -/
def Tame (f : NodeType → NodeType) : Prop := ∀ x, (f x).kind = x.kind ∧ (x.kind = .Section → f x = x)

theorem Tame.loose {f : NodeType → NodeType} (hf : Tame f) (d : DocTree) :
    LooseSteps d (d.setNodeData (f d.sharedData)) :=
  ReflTransGen.single (.fields d _ (hf _).1 (fun h => (hf _).2 ((hf _).1.symm.trans h)))

theorem Owed.still {α β : Type} {f : NodeType → NodeType} (hf : Tame f) {x : P α} {k : α → P β} {Q : β → Prop}
    (hx : Still x) (hk : ∀ a, Owed f (k a) Q) : Owed f (x >>= k) Q := by
  intro s
  constructor
  · intro b s'' h
    obtain ⟨a, s', h1, h2⟩ := bind_ok h
    obtain ⟨e1, e2, e3⟩ := (hx _).1 a s' h1
    have : s' = { s' with doc := s.doc.setNodeData (f s.doc.sharedData) } := by cases s'; simp only at e1; simp [e1]
    rw [this] at h2
    obtain ⟨e4, e5⟩ := (hk a { s' with doc := s.doc }).1 b s'' h2
    exact ⟨⟨Nat.le_trans e2 e4.offset, e4.baseline.trans e3, e4.steps⟩, e5⟩
  · intro d h
    rcases bind_fail h with h | ⟨a, s', h1, h2⟩
    · rw [(hx _).2 d h]
      exact hf.loose s.doc
    · obtain ⟨e1, _, _⟩ := (hx _).1 a s' h1
      have : s' = { s' with doc := s.doc.setNodeData (f s.doc.sharedData) } := by cases s'; simp only at e1; simp [e1]
      rw [this] at h2
      exact (hk a { s' with doc := s.doc }).2 d h2

theorem Owed.push {α : Type} {f : NodeType → NodeType} (hf : Tame f) {data : NodeType} {k : Unit → P α} {Q : α → Prop}
    (hb : ∀ d d' : DocTree, (d.setNodeData (f d.sharedData)).pushDataAndFocus data = .ok (true, d') → Build d d')
    (hn : data.kind ≠ .Section) (hk : Post (k ()) Q) : Owed f (P.pushFocus data >>= k) Q := by
  intro s
  constructor
  · intro b s'' h
    obtain ⟨a, s', h1, h2⟩ := bind_ok h
    obtain ⟨d, h3, rfl⟩ := orFail_ok h1
    obtain ⟨e1, e2⟩ := (hk _).1 b s'' h2
    exact ⟨⟨e1.offset, e1.baseline, (ReflTransGen.single (hb _ _ h3)).trans e1.steps⟩, e2⟩
  · intro d h
    rcases bind_fail h with h | ⟨a, s', h1, h2⟩
    · exact (hf.loose s.doc).trans (ReflTransGen.single (.refused data hn (orFail_fail h)))
    · obtain ⟨d1, h3, rfl⟩ := orFail_ok h1
      exact ReflTransGen.head (.build (hb _ _ h3)) ((hk _).2 d h2)

theorem tame_addPoints (p : Nat) : Tame (addPoints p) := by
  intro x; unfold addPoints; split
  · exact ⟨rfl, fun h => by cases h⟩
  · exact ⟨rfl, fun _ => rfl⟩

theorem tame_addItem : Tame addItem := by
  intro x; unfold addItem; split
  · exact ⟨rfl, fun h => by cases h⟩
  · exact ⟨rfl, fun _ => rfl⟩

theorem Owed.question {α : Type} {p : Nat} {data : NodeType} {k : Unit → P α} {Q : α → Prop}
    (hq : questionPoints data = some p) (hk : Post (k ()) Q) : Owed (addPoints p) (P.pushFocus data >>= k) Q :=
  Owed.push (tame_addPoints p) (fun _ _ h => .question p data hq h)
    (by intro h; cases data <;> first | (cases hq; done) | cases h) hk

theorem Owed.enumItem {α : Type} {data : NodeType} {k : Unit → P α} {Q : α → Prop}
    (hd : data.kind = .EnumeratedListItem) (hk : Post (k ()) Q) : Owed addItem (P.pushFocus data >>= k) Q :=
  Owed.push tame_addItem (fun _ _ h => .enumItem data hd h) (by rw [hd]; simp) hk

theorem Post.answer (a : Str) : Post (P.mapData (addAnswer a)) (fun _ => True) :=
  fun s => ⟨fun _ _ e => by
    cases e; exact ⟨⟨Nat.le_refl _, rfl, ReflTransGen.single (.answer s.doc a)⟩, trivial⟩, fun _ e => by cases e⟩

theorem Post.widths (n : Nat) : Post (P.mapData (setWidths n)) (fun _ => True) :=
  fun s => ⟨fun _ _ e => by
    cases e; exact ⟨⟨Nat.le_refl _, rfl, ReflTransGen.single (.widths s.doc n)⟩, trivial⟩, fun _ e => by cases e⟩

end Rustla
