import Verif.Spec.Build
import Verif.Lemmas.Inline
import Verif.Props.Inline
/-! # What inline parsing does to the document -/
namespace Rustla
open Relation

theorem run_bind_ok {α β : Type} {x : Run α} {f : α → Run β} {b : β} (h : (x >>= f) = .ok b) :
    ∃ a, x = .ok a ∧ f a = .ok b := by
  cases x with
  | error e => cases h
  | ok a => exact ⟨a, rfl, h⟩

/-- The nodes are of inline kinds and the document changes quietly. -/
def InlineGood (d : Option DocTree) (o : InlineOut) : Prop :=
  (∀ n ∈ o.1, inlineOutput n.kind = true) ∧
    match d, o.2.2 with
    | none, none => True
    | some x, some y => ReflTransGen Quiet x y
    | _, _ => False

/-- The two documents are the same up to quiet changes. -/
def QuietOpt (d d' : Option DocTree) : Prop :=
  match d, d' with
  | none, none => True
  | some x, some y => ReflTransGen Quiet x y
  | _, _ => False

theorem QuietOpt.refl (d : Option DocTree) : QuietOpt d d := by
  cases d with
  | none => trivial
  | some x => exact ReflTransGen.refl

theorem QuietOpt.trans {a b c : Option DocTree} (h1 : QuietOpt a b) (h2 : QuietOpt b c) : QuietOpt a c := by
  cases a <;> cases b <;> cases c <;> simp only [QuietOpt] at *
  exact h1.trans h2

theorem inlineGood_iff (d : Option DocTree) (o : InlineOut) :
    InlineGood d o ↔ (∀ n ∈ o.1, inlineOutput n.kind = true) ∧ QuietOpt d o.2.2 := by
  unfold InlineGood QuietOpt; rfl

theorem inlineGood_one {d : Option DocTree} {n : NodeType} {k : Nat} (h : inlineOutput n.kind = true) :
    InlineGood d ([n], k, d) := by
  rw [inlineGood_iff]; exact ⟨by simpa using h, QuietOpt.refl d⟩

theorem inlineGood_same {d d' : Option DocTree} {ns : List NodeType} {k : Nat}
    (h : ∀ n ∈ ns, inlineOutput n.kind = true) (hd : QuietOpt d d') : InlineGood d (ns, k, d') := by
  rw [inlineGood_iff]; exact ⟨h, hd⟩

theorem behindNodes_good (l : Str) : ∀ n ∈ behindNodes l, inlineOutput n.kind = true := by
  unfold behindNodes; split
  · simp
  · intro n hn; simp only [List.mem_singleton] at hn; subst hn; rfl

theorem roleNode_good {role content : Str} {n : NodeType} (h : roleNode role content = .ok n) :
    inlineOutput n.kind = true := by
  unfold roleNode at h
  repeat' (first | (cases h; done) | (cases h; rfl) | split at h)

theorem refLabel_good {t content : Str} {d d' : Option DocTree} {l : Str} (h : refLabel t content d = .ok (l, d')) :
    QuietOpt d d' := by
  unfold refLabel at h
  split at h
  · split at h
    · cases h; exact ReflTransGen.single (.anonReference _)
    · cases h; exact trivial
  · split at h
    · cases h; exact QuietOpt.refl _
    · cases h

theorem footnoteRefNode_good {a b c e : Str} {n : NodeType} (h : footnoteRefNode a b c e = .ok n) :
    inlineOutput n.kind = true := by
  unfold footnoteRefNode at h
  repeat' (first | (cases h; done) | (cases h; rfl) | split at h)

/-- Takes a `do` block of `Run` apart. -/
macro "unbind" h:ident : tactic =>
  `(tactic| repeat (replace $h := run_bind_ok $h; rcases $h:ident with ⟨_, _, $h:ident⟩))

theorem paired_good (k : Paired) {m : Match} {d : Option DocTree} {o : InlineOut} (h : pairedDelimiter k m d = .ok o) :
    InlineGood d o := by
  unfold pairedDelimiter at h
  unbind h
  split at h
  · cases h; exact inlineGood_one rfl
  · cases h
    refine inlineGood_same ?_ (QuietOpt.refl d)
    intro n hn
    simp only [List.mem_append, List.mem_singleton] at hn
    rcases hn with hn | hn
    · exact behindNodes_good _ n hn
    · subst hn; cases k <;> rfl

theorem target_good {m : Match} {d : Option DocTree} {o : InlineOut} (h : inlineTarget m d = .ok o) :
    InlineGood d o := by
  unfold inlineTarget at h
  unbind h
  cases h
  refine inlineGood_same (behindNodes_good _) ?_
  cases d with
  | none => trivial
  | some x => exact ReflTransGen.single (.internalTarget _ _)

theorem interpreted_good {m : Match} {d : Option DocTree} {o : InlineOut} (h : interpretedText m d = .ok o) :
    InlineGood d o := by
  unfold interpretedText at h
  obtain ⟨start, _, h⟩ := run_bind_ok h
  obtain ⟨content, _, h⟩ := run_bind_ok h
  obtain ⟨stop, _, h⟩ := run_bind_ok h
  simp only at h
  split at h
  · cases h; exact inlineGood_one rfl
  split at h
  · cases h; exact inlineGood_one rfl
  split at h
  · cases h; exact inlineGood_one rfl
  split at h
  · cases h; exact inlineGood_one rfl
  split at h
  · cases h; exact inlineGood_one rfl
  obtain ⟨n, hn, h⟩ := run_bind_ok h
  cases h
  exact inlineGood_one (roleNode_good hn)

theorem simple_good {m : Match} {d : Option DocTree} {o : InlineOut} (h : simpleRef m d = .ok o) :
    InlineGood d o := by
  unfold simpleRef at h
  obtain ⟨content, _, h⟩ := run_bind_ok h
  obtain ⟨t, _, h⟩ := run_bind_ok h
  split at h
  · cases h; exact inlineGood_one rfl
  obtain ⟨⟨l, d'⟩, hl, h⟩ := run_bind_ok h
  cases h
  exact inlineGood_same (by intro n hn; simp only [List.mem_singleton] at hn; subst hn; rfl) (refLabel_good hl)

theorem phrase_good {m : Match} {d : Option DocTree} {o : InlineOut} (h : phraseRef m d = .ok o) :
    InlineGood d o := by
  unfold phraseRef at h
  obtain ⟨start, _, h⟩ := run_bind_ok h
  obtain ⟨content, _, h⟩ := run_bind_ok h
  obtain ⟨t, _, h⟩ := run_bind_ok h
  obtain ⟨stop, _, h⟩ := run_bind_ok h
  simp only at h
  split at h
  · cases h; exact inlineGood_one rfl
  split at h
  · cases h; exact inlineGood_one rfl
  obtain ⟨⟨l, d'⟩, hl, h⟩ := run_bind_ok h
  cases h
  refine inlineGood_same (by intro n hn; simp only [List.mem_singleton] at hn; subst hn; rfl) ?_
  unfold phraseReference at hl
  split at hl
  · cases hl; exact QuietOpt.refl _
  obtain ⟨⟨l, d'⟩, hl', hl⟩ := run_bind_ok hl
  cases hl
  exact refLabel_good hl'

theorem footnoteRef_good {m : Match} {d : Option DocTree} {o : InlineOut} (h : footnoteRef m d = .ok o) :
    InlineGood d o := by
  unfold footnoteRef at h
  obtain ⟨_, _, h⟩ := run_bind_ok h
  obtain ⟨_, _, h⟩ := run_bind_ok h
  obtain ⟨_, _, h⟩ := run_bind_ok h
  obtain ⟨_, _, h⟩ := run_bind_ok h
  obtain ⟨node, hnode, h⟩ := run_bind_ok h
  cases h
  refine inlineGood_same ?_ (QuietOpt.refl d)
  intro n hn
  simp only [List.mem_append, List.mem_singleton] at hn
  rcases hn with hn | hn
  · exact behindNodes_good _ n hn
  · subst hn; exact footnoteRefNode_good hnode

theorem citationRef_good {m : Match} {d : Option DocTree} {o : InlineOut} (h : citationRef m d = .ok o) :
    InlineGood d o := by
  unfold citationRef at h
  obtain ⟨_, _, h⟩ := run_bind_ok h
  obtain ⟨_, _, h⟩ := run_bind_ok h
  obtain ⟨_, _, h⟩ := run_bind_ok h
  simp only at h
  split at h
  · cases h; exact inlineGood_one rfl
  split at h
  · cases h; exact inlineGood_one rfl
  · cases h
    exact inlineGood_same (by
      intro n hn
      simp only [List.mem_cons, List.not_mem_nil, or_false] at hn
      rcases hn with rfl | rfl <;> rfl) (QuietOpt.refl d)

theorem substitution_good {m : Match} {d : Option DocTree} {o : InlineOut} (h : substitutionRef m d = .ok o) :
    InlineGood d o := by
  unfold substitutionRef at h
  obtain ⟨_, _, h⟩ := run_bind_ok h
  obtain ⟨_, _, h⟩ := run_bind_ok h
  obtain ⟨_, _, h⟩ := run_bind_ok h
  simp only at h
  split at h
  · cases h; exact inlineGood_one rfl
  split at h
  · cases h; exact inlineGood_one rfl
  obtain ⟨⟨l, d'⟩, hl, h⟩ := run_bind_ok h
  cases h
  refine inlineGood_same (by intro n hn; simp only [List.mem_singleton] at hn; subst hn; rfl) ?_
  unfold substitutionTarget at hl
  split at hl
  · cases hl; exact QuietOpt.refl _
  obtain ⟨⟨l, d'⟩, hl', hl⟩ := run_bind_ok hl
  cases hl
  exact refLabel_good hl'

theorem uri_good {m : Match} {d : Option DocTree} {o : InlineOut} (h : inlineUri m d = .ok o) :
    InlineGood d o := by
  unfold inlineUri at h
  obtain ⟨_, _, h⟩ := run_bind_ok h
  simp only at h
  split at h
  · cases h; exact inlineGood_one rfl
  split at h
  · split at h
    · cases h; exact inlineGood_one rfl
    · cases h; exact inlineGood_one rfl
  split at h
  · cases h; exact inlineGood_one rfl
  · cases h; exact inlineGood_one rfl

theorem matchInline_good {d : Option DocTree} {s : Str} {o : InlineOut} (h : matchInlineStr d s = .ok (some o)) :
    InlineGood d o := by
  unfold matchInlineStr at h
  split at h
  · cases h
  have key : ∀ (ts : List (Re × (Match → Option DocTree → Run InlineOut))),
      (∀ t ∈ ts, ∀ m o, t.2 m d = .ok o → InlineGood d o) → firstInline d s ts = .ok (some o) → InlineGood d o := by
    intro ts
    induction ts with
    | nil => intro _ h; cases h
    | cons t ts ih =>
      intro hg h
      obtain ⟨r, f⟩ := t
      simp only [firstInline] at h
      split at h
      · obtain ⟨o', ho, h⟩ := run_bind_ok h
        cases h
        exact hg _ (List.mem_cons_self ..) _ _ ho
      · exact ih (fun t ht => hg t (List.mem_cons_of_mem _ ht)) h
  refine key inlineTransitions ?_ h
  intro t ht m o ho
  simp only [inlineTransitions, List.mem_cons, List.not_mem_nil, or_false] at ht
  rcases ht with rfl | rfl | rfl | rfl | rfl | rfl | rfl | rfl | rfl | rfl | rfl | rfl | rfl
  · cases ho; exact inlineGood_one rfl
  · exact paired_good _ ho
  · exact paired_good _ ho
  · exact paired_good _ ho
  · exact target_good ho
  · exact phrase_good ho
  · exact interpreted_good ho
  · exact footnoteRef_good ho
  · exact citationRef_good ho
  · exact simple_good ho
  · exact substitution_good ho
  · exact uri_good ho
  · cases ho; exact inlineGood_one rfl

theorem splits_good {d : Option DocTree} {s : Str} {ps : List (Str × List NodeType)} {d' : Option DocTree}
    (h : Splits d s ps d') : (∀ n ∈ ps.flatMap (·.2), inlineOutput n.kind = true) ∧ QuietOpt d d' := by
  induction h with
  | done d => exact ⟨by simp, QuietOpt.refl d⟩
  | step hm _ _ _ ih =>
    have := (inlineGood_iff _ _).mp (matchInline_good hm)
    refine ⟨?_, this.2.trans ih.2⟩
    intro n hn
    simp only [List.flatMap_cons, List.mem_append] at hn
    rcases hn with hn | hn
    · exact this.1 n hn
    · exact ih.1 n hn

/-- Inline parsing yields inline nodes, changes the bookkeeping of the document only and never moves the cursor back. -/
theorem inlineParse_good {d : Option DocTree} {c : LineCursor} {s : Str} {nodes : List NodeType} {d' : Option DocTree}
    {c' : LineCursor} (h : inlineParse d c s = .ok (nodes, d', c')) :
    (∀ n ∈ nodes, inlineOutput n.kind = true) ∧ QuietOpt d d' ∧ c.offset ≤ c'.offset ∧ c'.baseline = c.baseline := by
  obtain ⟨ps, hsp, _, _, rfl⟩ := C32_consumes d c s nodes d' c' h
  obtain ⟨h1, h2⟩ := splits_good hsp
  obtain ⟨h3, h4⟩ := C34_newlines d c s _ d' c' h
  exact ⟨h1, h2, by omega, h4⟩

end Rustla
