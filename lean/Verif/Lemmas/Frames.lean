import Verif.Props.Paragraphs
/-! # Rounds of the loop, seen as changes to the list of open nodes -/
namespace Rustla
open Spec

/-- An open node: the state that belongs to it, its data, the children it has so far, and the labels of the targets before it. -/
structure Frame where
  st : State
  data : NodeType
  done : List Shape
  extra : List Str := []

/-- The frame with more children. -/
def Frame.add (f : Frame) (ss : List Shape) : Frame := { f with done := f.done ++ ss }

theorem Frame.add_nil (f : Frame) : f.add [] = f := by simp [Frame.add]

theorem Frame.add_add (f : Frame) (a b : List Shape) : (f.add a).add b = f.add (a ++ b) := by simp [Frame.add]

/-- The labels that nodes of these documents have: a section has its title, footnotes with numbers and citations have their labels. -/
def ownLabels : NodeType → List Str
  | .Section title .. => [normalizeRefname title]
  | .Citation _ label => [normalizeRefname label]
  | .Footnote _ .Manual label _ => [normalizeRefname label]
  | _ => []

/-- The labels of an open node: those of the targets before it and its own ones. -/
@[simp] def Frame.labels (f : Frame) : List Str := f.extra ++ ownLabels f.data

/-- The node looks like the frame. -/
def Looks (n : TreeNode) (f : Frame) (cs : List TreeNode) : Prop :=
  n.data = f.data ∧ n.children = some cs ∧ shapesOf cs = f.done ∧ n.refnames.getD [] = f.labels ∧
  f.data.bodyIndent.isSome = true

/-- The ancestors of the focused node look like the frames. -/
inductive Above : List (TreeNode × Nat) → List Frame → Prop
  | nil : Above [] []
  | cons {p : TreeNode} {f : Frame} {cs : List TreeNode} {path : List (TreeNode × Nat)} {fs : List Frame} :
      Looks p f cs → Above path fs → Above ((p, cs.length) :: path) (f :: fs)

/-- The focused node and its ancestors look like the frames, the focused node first. -/
inductive Spine : Zipper → List Frame → Prop
  | mk {n : TreeNode} {f : Frame} {cs : List TreeNode} {path : List (TreeNode × Nat)} {fs : List Frame} :
      Looks n f cs → Above path fs → Spine ⟨n, path⟩ (f :: fs)

/-- The loop is at the given lines with the given open nodes, section levels and number of rounds without progress; the labels wait for
the next node. -/
structure AtL (labels : List Str) (E : Env) (S : SectionData) (os : List Frame) (s : LoopState) (frames : List Frame) (lines : List Str) (c : Nat) : Prop where
  here : E.src.drop s.ps.cursor.relativeOffset = lines
  spine : Spine s.ps.doc.tree (frames ++ os)
  stack : s.stack = stackFor (frames.map (·.st)).reverse lines
  count : s.count ≤ c
  secs : s.ps.doc.notes = (S, labels)

/-- The loop is at the given lines, and no label waits for the next node. -/
abbrev At (E : Env) (S : SectionData) (os : List Frame) (s : LoopState) (frames : List Frame) (lines : List Str) (c : Nat) : Prop :=
  AtL [] E S os s frames lines c

theorem AtL.pending {labels : List Str} {E : Env} {S : SectionData} {os : List Frame} {s : LoopState} {frames : List Frame} {lines : List Str} {c : Nat}
    (h : AtL labels E S os s frames lines c) : s.ps.doc.hyperref.accumulated = labels := congrArg Prod.snd h.secs

theorem AtL.calm {E : Env} {S : SectionData} {os : List Frame} {s : LoopState} {frames : List Frame} {lines : List Str} {c : Nat}
    (h : At E S os s frames lines c) : s.ps.doc.hyperref.accumulated = [] := congrArg Prod.snd h.secs

theorem AtL.levels {labels : List Str} {E : Env} {S : SectionData} {os : List Frame} {s : LoopState} {frames : List Frame} {lines : List Str} {c : Nat}
    (h : AtL labels E S os s frames lines c) : s.ps.doc.sections = S := congrArg Prod.fst h.secs

theorem ownLabels_simple {data : NodeType} (h : Simple data.kind) : ownLabels data = [] := by
  unfold ownLabels
  split
  · exact absurd rfl h.2.2.1
  · exact absurd rfl h.2.2.2.1
  · exact absurd rfl h.1
  · rfl

/-- Some number of rounds leads from one state of the loop to another one. -/
def Goes (E : Env) (s s' : LoopState) : Prop := ∃ k, Reaches (machineOf E) k s s'

theorem Goes.refl (E : Env) (s : LoopState) : Goes E s s := ⟨0, .refl _ _⟩

theorem Goes.trans {E : Env} {a b c : LoopState} (h : Goes E a b) (h' : Goes E b c) : Goes E a c := by
  obtain ⟨k, h⟩ := h
  obtain ⟨k', h'⟩ := h'
  exact ⟨_, h.trans h'⟩

theorem Goes.step {E : Env} {s s' : LoopState} (h : parseStep (machineOf E) s = .ok (.next s')) : Goes E s s' :=
  ⟨1, .step h⟩

/-- From the first situation the loop gets to the second one. -/
def LeadsL (labels : List Str) (E : Env) (S : SectionData) (os : List Frame) (s : LoopState) (frames : List Frame) (lines : List Str) (c : Nat) : Prop :=
  ∃ s', Goes E s s' ∧ AtL labels E S os s' frames lines c

/-- From the first situation the loop gets to the second one, in which no label waits for the next node. -/
abbrev Leads (E : Env) (S : SectionData) (os : List Frame) (s : LoopState) (frames : List Frame) (lines : List Str) (c : Nat) : Prop :=
  LeadsL [] E S os s frames lines c

theorem AtL.leads {labels : List Str} {E : Env} {S : SectionData} {os : List Frame} {s : LoopState} {frames : List Frame} {lines : List Str} {c : Nat}
    (h : AtL labels E S os s frames lines c) : LeadsL labels E S os s frames lines c := ⟨s, .refl _ _, h⟩

theorem Goes.leads {labels : List Str} {E : Env} {S : SectionData} {os : List Frame} {s s' : LoopState} {frames : List Frame} {lines : List Str} {c : Nat}
    (h : Goes E s s') (h' : LeadsL labels E S os s' frames lines c) : LeadsL labels E S os s frames lines c := by
  obtain ⟨t, h1, h2⟩ := h'
  exact ⟨t, h.trans h1, h2⟩

/-- States in which the loop reads blocks, items or questions. -/
def State.readable (st : State) : Prop :=
  st = .Body ∨ st = .Section ∨ st = .ListItem ∨ st = .BulletList ∨ st = .Admonition ∨ st = .Figure ∨ st = .AplusMultiCol ∨
  st = .AplusQuestionnaire ∨ st = .BlockQuote ∨ st = .EnumeratedList ∨ st = .FieldList ∨ st = .Footnote ∨ st = .Citation ∨
  st = .ListTable

theorem AtL.stands {labels : List Str} {E : Env} {S : SectionData} {os : List Frame} {s : LoopState} {f : Frame} {fs : List Frame} {l : Str} {ls : List Str} {c : Nat}
    (h : AtL labels E S os s (f :: fs) (l :: ls) c) (hc : c ≤ 9) : Stands E s f.st (l :: ls) :=
  ⟨h.here, by simp, by rw [h.stack]; simp [stackFor], by have := h.count; omega⟩

theorem AtL.stack_cons {labels : List Str} {E : Env} {S : SectionData} {os : List Frame} {s : LoopState} {f : Frame} {fs : List Frame} {l : Str} {ls : List Str} {c : Nat}
    (h : AtL labels E S os s (f :: fs) (l :: ls) c) : s.stack = (fs.map (·.st)).reverse ++ [f.st] := by
  rw [h.stack]; simp [stackFor]

theorem tableOf_readable {E : Env} {st : State} (h : st.readable) :
    (∃ ts, tableOf E st = .ok ((reBlankLine, emptyLine) :: ts)) ∧ st ≠ .EOF ∧ st ≠ .Failure := by
  rcases h with rfl | rfl | rfl | rfl | rfl | rfl | rfl | rfl | rfl | rfl | rfl | rfl | rfl | rfl
  · exact ⟨⟨(bodyTable E).tail, rfl⟩, by simp, by simp⟩
  · exact ⟨⟨(bodyTable E).tail, rfl⟩, by simp, by simp⟩
  · exact ⟨⟨(bodyTable E).tail, rfl⟩, by simp, by simp⟩
  · exact ⟨⟨_, rfl⟩, by simp, by simp⟩
  · exact ⟨⟨(bodyTable E).tail, rfl⟩, by simp, by simp⟩
  · exact ⟨⟨(bodyTable E).tail, rfl⟩, by simp, by simp⟩
  · exact ⟨⟨_, rfl⟩, by simp, by simp⟩
  · exact ⟨⟨_, rfl⟩, by simp, by simp⟩
  · exact ⟨⟨_, rfl⟩, by simp, by simp⟩
  · exact ⟨⟨_, rfl⟩, by simp, by simp⟩
  · exact ⟨⟨_, rfl⟩, by simp, by simp⟩
  · exact ⟨⟨(bodyTable E).tail, rfl⟩, by simp, by simp⟩
  · exact ⟨⟨(bodyTable E).tail, rfl⟩, by simp, by simp⟩
  · exact ⟨⟨_, rfl⟩, by simp, by simp⟩

theorem mem_run_lit : ∀ {w s : Str} {cs : Caps} {q : Str × Caps}, q ∈ (Re.lit w).run s cs → s = w ++ q.1
  | [], s, cs, q, h => by
    simp only [Re.lit, Re.run, List.mem_singleton] at h
    rw [h]; rfl
  | [c], s, cs, q, h => mem_run_chr h
  | c :: d :: w, s, cs, q, h => by
    obtain ⟨q1, h1, h2⟩ := run_seq2 (show q ∈ (Re.seq (.chr c) (.lit (d :: w))).run s cs from h)
    rw [mem_run_chr h1, mem_run_lit h2]; rfl

/-- A line that is not a column break, and not an attribution if the state is that of a block quote. -/
def NoBreak (st : State) (l : Str) : Prop :=
  reAplusColBreak.captures l = none ∧ (st = .BlockQuote → reAttribution.captures l = none)

theorem takeWhile_ws {p t : Str} {c : Char} (hp : ∀ x ∈ p, isWs x = true) (hc : isWs c = false) :
    (p ++ c :: t).takeWhile isWs = p ∧ (p ++ c :: t).dropWhile isWs = c :: t := by
  induction p with
  | nil => simp [hc]
  | cons a p ih =>
    obtain ⟨h1, h2⟩ := ih fun x hx => hp x (by simp [hx])
    simp [hp a (by simp), h1, h2]

/-- What an attribution starts with. -/
theorem attribution_run {i : Nat} {c : Char} {t : Str} (hc : isWs c = false) {q : Str × Caps} (hq : q ∈ reAttribution.run (spaces i ++ c :: t) []) :
    Dashed (c :: t) ∧ q.2 = [(.g1, spaces i)] := by
  obtain ⟨q1, h1, h2⟩ := mem_seq.mp hq
  obtain ⟨m, r, hm, hr, rfl⟩ := mem_cap.mp h1
  obtain ⟨hcs, m', hs, hm'⟩ := mem_star_cls.mp hr
  obtain rfl : m = m' := List.append_cancel_right (hm.symm.trans hs)
  obtain ⟨q3, h4, h5⟩ := mem_seq.mp h2
  obtain ⟨hcs5, _, _, _⟩ := (mem_star_cls (g := true) (p := fun c => c == ' ')).mp h5
  have key : Dashed r.1 ∧ q3.2 = [(.g1, m)] := by
    simp only [hcs] at h4
    rcases mem_alt.mp h4 with h | h
    · obtain ⟨h, h'⟩ := mem_lit.mp h
      exact ⟨.inl ⟨_, h.symm⟩, h'⟩
    rcases mem_alt.mp h with h | h
    · obtain ⟨h, h'⟩ := mem_lit.mp h
      exact ⟨.inl ⟨'-' :: q3.1, h.symm⟩, h'⟩
    · obtain ⟨t', h, h'⟩ := mem_chr.mp h
      exact ⟨.inr ⟨t', h.symm⟩, by rw [h']⟩
  obtain ⟨hd, hg⟩ := key
  have hfront : ∃ x y, r.1 = x :: y ∧ isWs x = false := by
    rcases hd with ⟨x, hx⟩ | ⟨x, hx⟩
    · exact ⟨'-', '-' :: x, hx.symm, by decide⟩
    · exact ⟨'—', x, hx.symm, by decide⟩
  obtain ⟨x, y, e, hx⟩ := hfront
  have k1 := takeWhile_ws (p := spaces i) (t := t) (by intro x hx; rw [List.eq_of_mem_replicate hx]; decide) hc
  have k2 := takeWhile_ws (p := m) (c := x) (t := y) hm' hx
  rw [← e, ← hm, k1.1, k1.2] at k2
  exact ⟨by rw [k2.2]; exact hd, by rw [hcs5, hg, k2.1]⟩

theorem noDash_indented {i : Nat} {c : Char} {t : Str} (hc : isWs c = false) (hn : ¬ Dashed (c :: t)) :
    reAttribution.captures (spaces i ++ c :: t) = none := by
  rw [Re.captures_none_iff, List.eq_nil_iff_forall_not_mem]
  exact fun q hq => hn (attribution_run hc hq).1

theorem noBreak_indented {st : State} {i : Nat} {c : Char} {t : Str} (hc : isWs c = false) (hn : ¬ str! "::newcol" <+: c :: t)
    (hd : st = .BlockQuote → ¬ Dashed (c :: t)) : NoBreak st (spaces i ++ c :: t) := by
  refine ⟨?_, fun e => noDash_indented hc (hd e)⟩
  rw [Re.captures_none_iff, List.eq_nil_iff_forall_not_mem]
  intro q hq
  obtain ⟨q1, h1, h2⟩ := run_seq2 hq
  simp only [Re.run] at h1
  obtain ⟨q2, h3, rfl⟩ := List.mem_map.mp h1
  obtain ⟨e, _, he, hs⟩ := mem_run_plus h3
  have h4 := mem_run_lit h2
  simp only at h4
  rw [h4] at hs
  have k1 := (takeWhile_ws (p := spaces i) (t := t) (by intro x hx; rw [List.eq_of_mem_replicate hx]; decide) hc).2
  rw [hs] at k1
  have k2 := (takeWhile_ws (p := e) (c := ':') (t := str! ":newcol" ++ q.1) he (by decide)).2
  apply hn
  rw [← k1]
  exact ⟨q.1, k2.symm⟩

theorem noBreak_zero {st : State} {c : Char} {t : Str} (hc : isWs c = false) (hst : st ≠ .BlockQuote) : NoBreak st (c :: t) := by
  refine ⟨?_, fun e => absurd e hst⟩
  rw [Re.captures_none_iff]
  unfold reAplusColBreak
  refine run_seq_dead (run_cap_dead ?_)
  simp [Re.plus, Re.run, hc]

/-- States that treat lines like the body of a document, except for column breaks and attributions. -/
def BodyLike (E : Env) (st : State) : Prop :=
  ∃ ts, tableOf E st = .ok ts ∧ ∀ l, NoBreak st l → firstTransition l ts = firstTransition l (bodyTable E)

theorem BodyLike.of {E : Env} {st : State} (h : tableOf E st = .ok (bodyTable E)) : BodyLike E st := ⟨_, h, fun _ _ => rfl⟩

theorem BodyLike.columns (E : Env) : BodyLike E .AplusMultiCol := by
  refine ⟨_, rfl, fun l h => ?_⟩
  show firstTransition l ((reBlankLine, emptyLine) :: (reAplusColBreak, colBreak) :: bodyRest E) =
    firstTransition l ((reBlankLine, emptyLine) :: bodyRest E)
  simp only [firstTransition, h.1]

theorem BodyLike.quote (E : Env) : BodyLike E .BlockQuote := by
  refine ⟨_, rfl, fun l h => ?_⟩
  show firstTransition l ((reBlankLine, emptyLine) :: (reAttribution, attribution E) :: bodyRest E) =
    firstTransition l ((reBlankLine, emptyLine) :: bodyRest E)
  simp only [firstTransition, h.2 rfl]

theorem noBreak_text {st : State} {l : Str} (hl : TextLine l) (hn : ¬ str! "::newcol" <+: l) (hd : st = .BlockQuote → ¬ Dashed l) (i : Nat) :
    NoBreak st (indentLine i l) := by
  obtain ⟨c, t, rfl, hc⟩ := hl.cons
  exact noBreak_indented hc hn hd

theorem noBreak_bullet {st : State} {b : Char} (hb : clsBullet b = true) (hw : isWs b = false) (i : Nat) (l : Str) :
    NoBreak st (bulletLine b i l) := by
  refine noBreak_indented (t := ' ' :: l) hw ?_ fun _ => ?_
  · rintro ⟨x, hx⟩
    have : ':' = b := by simpa using congrArg List.head? hx
    subst this
    exact absurd hb (by decide)
  · rintro (⟨x, hx⟩ | ⟨x, hx⟩)
    · have : '-' = ' ' := by
        have hx : '-' :: '-' :: x = b :: ' ' :: l := hx
        simp only [List.cons.injEq] at hx
        exact hx.2.1
      exact absurd this (by decide)
    · have : '—' = b := by simpa using congrArg List.head? hx
      subst this
      exact absurd hb (by decide)

theorem drop_incr {E : Env} {c : LineCursor} {ls : List Str} (h : E.src.drop c.relativeOffset = ls) (k : Nat) :
    E.src.drop (c.incrementBy k).relativeOffset = ls.drop k := by
  show E.src.drop (c.relativeOffset + k) = _
  rw [← h, List.drop_drop]

/-- One blank line. -/
theorem AtL.blank {labels : List Str} {E : Env} {S : SectionData} {os : List Frame} {s : LoopState} {f : Frame} {fs : List Frame} {b : Str} {ls : List Str} {c : Nat}
    (h : AtL labels E S os s (f :: fs) (b :: ls) c) (hc : c ≤ 9) (hf : f.st.readable) (hb : isBlank b = true) :
    LeadsL labels E S os s (f :: fs) ls 0 := by
  obtain ⟨⟨ts, ht⟩, hst⟩ := tableOf_readable (E := E) hf
  have hstep := step_blank (h.stands hc) ht hst hb
  refine ⟨_, .step hstep, ⟨?_, h.spine, ?_, Nat.le_refl _, h.secs⟩⟩
  · exact drop_incr h.here 1
  · simp [h.stack_cons]

/-- Blank lines; the number of rounds without progress is zero behind them if it was zero or there are some. -/
theorem AtL.blanks {labels : List Str} {E : Env} {S : SectionData} {os : List Frame} {f : Frame} {fs : List Frame} (hf : f.st.readable) {ls : List Str} :
    ∀ {bs : List Str} {s : LoopState}, (∀ l ∈ bs, isBlank l = true) → AtL labels E S os s (f :: fs) (bs ++ ls) 0 →
      LeadsL labels E S os s (f :: fs) ls 0
  | [], _, _, h => h.leads
  | b :: bs, s, hb, h => by
    obtain ⟨s', h1, h2⟩ := h.blank (by omega) hf (hb b (by simp))
    exact h1.leads (blanks hf (fun l hl => hb l (by simp [hl])) h2)

/-- A round without progress in which a transition succeeds. -/
theorem step_stays {E : Env} {s : LoopState} {st : State} {l : Str} {ls : List Str} {ts : List (Re × Transition)}
    (h : Stands E s st (l :: ls)) (ht : tableOf E st = .ok ts) (hst : st ≠ .EOF ∧ st ≠ .Failure)
    {m : Match} {f : Transition} (hf : firstTransition l ts = some (m, f)) {pp : PushOrPop} {ps : PS}
    (hr : f m s.ps = .ok (pp, none) ps) (hcur : ps.cursor = s.ps.cursor) {stack : List State}
    (hp : applyPushOrPop s.stack pp = .ok stack) :
    parseStep (machineOf E) s = .ok (.next { ps := ps, stack := stack, changed := false, count := s.count + 1 }) := by
  have hget : E.src[s.ps.cursor.relativeOffset]? = some l := by
    have := congrArg (·[0]?) h.here
    simpa using this
  have hlen : s.ps.cursor.relativeOffset < E.src.length := by
    have : (l :: ls).length = E.src.length - s.ps.cursor.relativeOffset := by rw [← h.here]; simp
    simp only [List.length_cons] at this; omega
  unfold parseStep
  rw [if_neg (by rintro ⟨_, h2⟩; have := h.fresh; omega), h.top]
  have hgo : (do runTable (machineOf E) s (← (machineOf E).table st)) = Except.ok (Round.next
      { ps := ps, stack := stack, changed := false, count := s.count + 1 }) := by
    have e1 : (machineOf E).table st = .ok ts := ht
    have e2 : (machineOf E).src[s.ps.cursor.relativeOffset]? = some l := hget
    simp only [e1, bind, Except.bind]
    cases ts with
    | nil => simp [firstTransition] at hf
    | cons t ts =>
      have hnot : ¬ (s.ps.cursor.relativeOffset ≥ (machineOf E).src.length) := by
        show ¬ (s.ps.cursor.relativeOffset ≥ E.src.length); omega
      simp only [runTable, e2, hf, hr, afterTransition, hp, bind, Except.bind, applyAdvance, hcur, if_true, pure, Except.pure,
        endRound, hnot, if_false]
      rw [← hcur]
  cases st with
  | EOF => exact absurd rfl hst.1
  | Failure => exact absurd rfl hst.2
  | _ => exact hgo

/-- A round in which no transition matches. -/
theorem step_noMatch {E : Env} {s : LoopState} {st : State} {l : Str} {ls : List Str} {ts : List (Re × Transition)}
    (h : Stands E s st (l :: ls)) (ht : tableOf E st = .ok ts) (hst : st ≠ .EOF ∧ st ≠ .Failure) (hts : ts ≠ [])
    (hf : firstTransition l ts = none) {d : DocTree} (hd : s.ps.doc.focusOnParent = .ok d) :
    parseStep (machineOf E) s =
      .ok (.next { s with ps := { s.ps with doc := d }, stack := s.stack.dropLast, changed := false }) := by
  have hget : E.src[s.ps.cursor.relativeOffset]? = some l := by
    have := congrArg (·[0]?) h.here
    simpa using this
  have hlen : s.ps.cursor.relativeOffset < E.src.length := by
    have : (l :: ls).length = E.src.length - s.ps.cursor.relativeOffset := by rw [← h.here]; simp
    simp only [List.length_cons] at this; omega
  unfold parseStep
  rw [if_neg (by rintro ⟨_, h2⟩; have := h.fresh; omega), h.top]
  have hgo : (do runTable (machineOf E) s (← (machineOf E).table st)) = Except.ok (Round.next
      { s with ps := { s.ps with doc := d }, stack := s.stack.dropLast, changed := false }) := by
    have e1 : (machineOf E).table st = .ok ts := ht
    have e2 : (machineOf E).src[s.ps.cursor.relativeOffset]? = some l := hget
    simp only [e1, bind, Except.bind]
    cases ts with
    | nil => exact absurd rfl hts
    | cons t ts =>
      have hnot : ¬ (s.ps.cursor.relativeOffset ≥ (machineOf E).src.length) := by
        show ¬ (s.ps.cursor.relativeOffset ≥ E.src.length); omega
      simp only [runTable, e2, hf, noMatch, hd, bind, Except.bind, pure, Except.pure, endRound, hnot, if_false]
  cases st with
  | EOF => exact absurd rfl hst.1
  | Failure => exact absurd rfl hst.2
  | _ => exact hgo

/-- The shape of a closed node. -/
def Frame.shape (f : Frame) : Shape := .labelled f.data f.labels f.done

theorem Looks.shape {n : TreeNode} {f : Frame} {cs : List TreeNode} (h : Looks n f cs) : shapeOf n = f.shape := by
  rw [shapeOf_children h.2.1, h.1, h.2.2.1, h.2.2.2.1]; rfl

theorem Looks.add {n : TreeNode} {f : Frame} {cs ns : List TreeNode} (h : Looks n f cs) {ss : List Shape}
    (hs : shapesOf ns = ss) : Looks (n.setChildren (some (cs ++ ns))) (f.add ss) (cs ++ ns) := by
  refine ⟨?_, TreeNode.children_setChildren .., ?_, ?_, h.2.2.2.2⟩
  · rw [TreeNode.data_setChildren]; exact h.1
  · rw [shapesOf_append, h.2.2.1, hs]; rfl
  · cases n with | mk a b c d e => exact h.2.2.2.1

/-- Leaving the focused node. -/
theorem Spine.parent {d : DocTree} {e f : Frame} {fs : List Frame} (h : Spine d.tree (e :: f :: fs)) :
    ∃ d', d.focusOnParent = .ok d' ∧ Spine d'.tree (f.add [e.shape] :: fs) ∧ d'.notes = d.notes := by
  generalize ht : d.tree = z at h
  cases h with
  | mk hl ha =>
    cases ha with
    | cons hp hrest =>
      rename_i n cs p cs' path
      have := focusOnParent_ok (d := d) (p := p) (cs := cs') (rest := path) (by rw [ht]) hp.2.1
      refine ⟨_, this, ?_, rfl⟩
      rw [ht]
      exact .mk (hp.add (ns := [n]) (by simp [shapesOf, hl.shape])) hrest

/-- Leaving the focused node in the middle of a transition. -/
theorem Spine.leave {s : PS} {e f : Frame} {fs : List Frame} (h : Spine s.doc.tree (e :: f :: fs)) :
    ∃ d', Rustla.leave s = .ok (.pop, none) { s with doc := d' } ∧ Spine d'.tree (f.add [e.shape] :: fs) ∧
      d'.notes = s.doc.notes := by
  obtain ⟨d', h1, h2, h3⟩ := h.parent
  exact ⟨d', by simp [Rustla.leave, bind, P.bind, P.parent, h1, pure, P.pure], h2, h3⟩

theorem Spine.data {z : Zipper} {f : Frame} {fs : List Frame} (h : Spine z (f :: fs)) : z.node.data = f.data := by
  cases h with | mk hl _ => exact hl.1

/-- A round in which the transition leaves the focused node. -/
theorem AtL.left {labels : List Str} {E : Env} {S : SectionData} {os : List Frame} {s : LoopState} {e f : Frame} {fs : List Frame} {l : Str} {ls : List Str} {c : Nat}
    (h : AtL labels E S os s (e :: f :: fs) (l :: ls) c) (hc : c ≤ 9) {ts : List (Re × Transition)} (ht : tableOf E e.st = .ok ts)
    (hst : e.st ≠ .EOF ∧ e.st ≠ .Failure) {m : Match} {t : Transition} (hf : firstTransition l ts = some (m, t)) {d' : DocTree}
    {n : Nat} (hr : t m s.ps = .ok (.pop, none) { s.ps with doc := d', sectionLevel := n })
    (hd : Spine d'.tree (f.add [e.shape] :: (fs ++ os))) (hs : d'.notes = s.ps.doc.notes) :
    LeadsL labels E S os s (f.add [e.shape] :: fs) (l :: ls) (c + 1) := by
  have hstack := h.stack_cons
  have := step_stays (h.stands hc) ht hst hf hr rfl (stack := s.stack.dropLast) (by
    rw [hstack]; simp [applyPushOrPop])
  refine ⟨_, .step this, ⟨h.here, hd, ?_, ?_, hs.trans h.secs⟩⟩
  · rw [hstack]; simp [stackFor, Frame.add]
  · have := h.count; simp only; omega

/-- A list is left at a line without bullet. -/
theorem AtL.leave_list {E : Env} {S : SectionData} {os : List Frame} {s : LoopState} {e f : Frame} {fs : List Frame} {l : Str} {ls : List Str} {c : Nat}
    (i : Nat) (h : At E S os s (e :: f :: fs) (indentLine i l :: ls) c) (hc : c ≤ 9) (he : e.st = .BulletList) (hl : FirstLine l) :
    Leads E S os s (f.add [e.shape] :: fs) (indentLine i l :: ls) c := by
  obtain ⟨d', h1, h2, h3⟩ := h.spine.parent
  have hst := h.stands hc
  rw [he] at hst
  have := step_noMatch hst (ts := [(reBlankLine, emptyLine), (reBullet, listBullet E)]) rfl (by simp) (by simp)
    (item_no_transition E i hl) h1
  refine ⟨_, .step this, ⟨h.here, h2, ?_, h.count, h3.trans h.secs⟩⟩
  simp [h.stack_cons, stackFor, Frame.add]

/-- A list is left at a line with another bullet or at another indentation. -/
theorem AtL.leave_other_list {E : Env} {S : SectionData} {os : List Frame} {s : LoopState} {e f : Frame} {fs : List Frame} {l : Str} {ls : List Str}
    {c : Nat} {b b' : Char} {i i' j t : Nat} (hij : i + E.baseIndent = j) (h : At E S os s (e :: f :: fs) (bulletLine b i l :: ls) c)
    (hc : c ≤ 9) (he : e.st = .BulletList) (hd : e.data = .BulletList b' i' t) (hne : b' ≠ b ∨ i' ≠ j) (hl : TextLine l)
    (hb : clsBullet b = true) (hw : isWs b = false) :
    Leads E S os s (f.add [e.shape] :: fs) (bulletLine b i l :: ls) (c + 1) := by
  obtain ⟨d', h1, h2, h3⟩ := h.spine.leave
  refine h.left hc (n := s.ps.sectionLevel) (ts := [(reBlankLine, emptyLine), (reBullet, listBullet E)]) (by rw [he]; rfl)
    (by rw [he]; simp) (item_transition E hb hw i hl) ?_ h2 h3
  have hdata := h.spine.data
  rw [hd] at hdata
  have hcond : ¬ (b' = b ∧ i' = j ∧ t = utf8Len (bulletMatch b i l).whole + E.baseIndent) := by
    rintro ⟨rfl, rfl, _⟩
    rcases hne with h | h <;> exact h rfl
  unfold listBullet
  have e1 : (bulletMatch b i l).getD .g2 = [b] := rfl
  have e2 : (bulletMatch b i l).getD .g1 = spaces i := rfl
  simp only [e1, e2, bind, P.bind, P.lift, P.doc, DocTree.sharedData, hdata, asBulletList, hij,
    List.length_replicate] at hcond ⊢
  rw [if_neg hcond]
  exact h1

/-- What an item of a bullet list does in the body of a document. -/
theorem bullet_acts {E : Env} {i : Nat} {b : Char} {l : Str} {ls : List Str} {ps : PS} (_ : E.src.drop ps.cursor.relativeOffset = bulletLine b i l :: ls) (hl : TextLine l)
    (hb : clsBullet b = true) (hw : isWs b = false) :
    ∃ m tr act, firstTransition (bulletLine b i l) (bodyTable E) = some (m, tr) ∧ tr m ps = atIndent (i + E.baseIndent) act ps := by
  refine ⟨_, _, P.pushFocus (.BulletList b (i + E.baseIndent) ((bulletMatch b i l).whole.length + E.baseIndent)) >>= fun _ => pure (.push [.BulletList], none),
    bullet_transition E hb hw i hl, ?_⟩
  unfold bodyBullet
  have e1 : (bulletMatch b i l).getD .g2 = [b] := rfl
  have e2 : (bulletMatch b i l).getD .g1 = spaces i := rfl
  simp only [e1, e2, bind, P.bind, P.lift, List.length_replicate]

/-- What a line of text does in the body of a document if it is not a title. -/
theorem text_acts {E : Env} {i : Nat} {l : Str} {ls : List Str} {ps : PS} (h : E.src.drop ps.cursor.relativeOffset = indentLine i l :: ls) (hl : FirstLine l)
    (hn : ∀ n, ls.head? = some n → reLine.isMatch n = false) :
    ∃ m tr act, firstTransition (indentLine i l) (bodyTable E) = some (m, tr) ∧ tr m ps = atIndent (i + E.baseIndent) act ps := by
  obtain ⟨m, hm, hg⟩ := indented_transition E hl i
  have hnext : E.src[ps.cursor.relativeOffset + 1]? = ls.head? := by
    have := congrArg (·[1]?) h
    rw [List.head?_eq_getElem?]
    simpa using this
  have key : ∃ act, bodyText E m ps = atIndent (i + E.baseIndent) act ps := by
    unfold bodyText textAt
    simp only [hg, List.length_replicate, bind, P.bind, P.offset, hnext]
    cases hh : ls.head? with
    | none => exact ⟨_, rfl⟩
    | some n =>
      simp only [hn n hh, Bool.false_eq_true, if_false]
      cases reText.captures n with
      | none => exact ⟨_, rfl⟩
      | some m =>
        simp only
        split
        · exact ⟨_, rfl⟩
        · exact ⟨_, rfl⟩
  obtain ⟨act, hact⟩ := key
  exact ⟨m, _, act, hm, hact⟩

/-- A node is left at a line with a smaller indentation. -/
theorem atIndent_low {ps : PS} {f : Frame} {fs : List Frame} (h : Spine ps.doc.tree (f :: fs)) {t k : Nat} (ht : f.data.bodyIndent = some t)
    (hk : k < t) (act : P Moves) : atIndent k act ps = leave ps := by
  have hp : parentIndentMatches ps.doc.tree.node.data k = .ok .tooLittle := by
    unfold parentIndentMatches
    rw [h.data, ht]
    simp [hk]
  simp only [atIndent, bind, P.bind, P.lift, P.doc, DocTree.sharedData, hp]

/-- A block quote is opened at a line with a larger indentation. -/
theorem atIndent_high {ps : PS} {f : Frame} {fs : List Frame} (h : Spine ps.doc.tree (f :: fs)) {t k : Nat} (ht : f.data.bodyIndent = some t)
    (hk : t < k) (act : P Moves) : atIndent k act ps = enterQuote k ps := by
  have hp : parentIndentMatches ps.doc.tree.node.data k = .ok .tooMuch := by
    unfold parentIndentMatches
    rw [h.data, ht]
    have h1 : ¬ t > k := by omega
    have h2 : ¬ t = k := by omega
    simp [h1, h2]
  simp only [atIndent, bind, P.bind, P.lift, P.doc, DocTree.sharedData, hp]

/-- The action at a line with the right indentation. -/
theorem atIndent_right {ps : PS} {f : Frame} {fs : List Frame} (h : Spine ps.doc.tree (f :: fs)) {t : Nat} (ht : f.data.bodyIndent = some t)
    (act : P Moves) : atIndent t act ps = act ps := by
  have hp : parentIndentMatches ps.doc.tree.node.data t = .ok .justRight := by
    unfold parentIndentMatches
    rw [h.data, ht]
    simp
  simp only [atIndent, bind, P.bind, P.lift, P.doc, DocTree.sharedData, hp]

/-- Nodes whose content is a sequence of blocks at the given indentation. -/
structure Frame.Body (E : Env) (f : Frame) (i : Nat) : Prop where
  table : BodyLike E f.st
  readable : f.st.readable
  indent : f.data.bodyIndent = some i
  kids : ∀ k : Kind, .Body ∈ k.categories → childIsAllowed f.data.kind k = .ok true

/-- Nodes that take all kinds of blocks. -/
theorem takes_body {p k : Kind} {cats : List NodeCategory} {kinds : List Kind} (h : p.childRule = .accept cats kinds)
    (hc : .Body ∈ cats) (hk : .Body ∈ k.categories) : childIsAllowed p k = .ok true := by
  unfold childIsAllowed
  rw [h]
  simp only [Except.ok.injEq, Bool.or_eq_true, List.any_eq_true]
  exact .inl ⟨.Body, hk, by simpa using hc⟩

theorem Frame.Body.notEnd {E : Env} {f : Frame} {i : Nat} (h : f.Body E i) : f.st ≠ .EOF ∧ f.st ≠ .Failure :=
  (tableOf_readable (E := E) h.readable).2

theorem Frame.Body.add {E : Env} {f : Frame} {i : Nat} (h : f.Body E i) (ss : List Shape) : (f.add ss).Body E i :=
  ⟨h.table, h.readable, h.indent, h.kids⟩

/-- A paragraph becomes a child of the focused node and gets the labels of the targets before it. -/
theorem AtL.paragraph_targets {labels : List Str} {E : Env} {S : SectionData} {os : List Frame} {s : LoopState} {f : Frame} {fs : List Frame} {g rest : List Str} {ps : List Piece}
    {c i j : Nat} (hij : i + E.baseIndent = j) (h : AtL labels E S os s (f :: fs) (g.map (indentLine i) ++ rest) c)
    (hc : c ≤ 9) (hf : f.Body E j) (hp : Para g ps) (hq : f.st = .BlockQuote → ∀ l, g.head? = some l → ¬ Dashed l) (hr : Ends i rest) :
    Leads E S os s (f.add [.labelled (.Paragraph j) labels (ps.map Piece.shape)] :: fs) rest 0 := by
  have hstands : Stands E s f.st (g.map (indentLine i) ++ rest) := by
    cases g with
    | nil => exact absurd rfl hp.notEmpty
    | cons l g => exact AtL.stands (l := indentLine i l) (ls := g.map (indentLine i) ++ rest) h hc
  have hstack : s.stack = (fs.map (·.st)).reverse ++ [f.st] := by
    cases g with
    | nil => exact absurd rfl hp.notEmpty
    | cons l g => exact AtL.stack_cons (l := indentLine i l) (ls := g.map (indentLine i) ++ rest) h
  have hsp := h.spine
  generalize hz : s.ps.doc.tree = z at hsp
  obtain ⟨ts, ht, hts⟩ := hf.table
  have hts' : ∀ l, g.head? = some l → firstTransition (indentLine i l) ts = firstTransition (indentLine i l) (bodyTable E) := by
    intro l hl
    refine hts _ (noBreak_text ?_ (hp.noBreak l hl) (fun e => hq e l hl) i)
    cases g with
    | nil => cases hl
    | cons a g => obtain rfl : a = l := by simpa using hl
                  exact hp.lines.1.toTextLine
  cases hsp with
  | mk hl ha =>
    rename_i n cs path
    obtain ⟨d', para, h1, h2, h3, h4⟩ := step_paragraph_at i hstands ht hts' hf.notEnd hp.notEmpty hp.lines hp.pieces hp.text hr
      (by rw [hz, hij, hl.1]; exact hf.indent)
      (by rw [hz]; show childIsAllowed n.data.kind _ = _; rw [hl.1]; exact hf.kids .Paragraph (by decide)) (cs := cs) (by rw [hz]; exact hl.2.1)
    rw [hij, h.pending] at h3
    rw [h.secs] at h2
    refine ⟨_, .step h1, ⟨?_, ?_, ?_, Nat.le_refl _, h2⟩⟩
    · have := drop_incr h.here g.length
      rw [this]; simp
    · show Spine d'.tree _
      rw [h4, hz]
      exact .mk (hl.add (ns := [para]) (by simp [shapesOf, h3])) ha
    · simp only [hstack]; simp [stackFor, Frame.add]

/-- A paragraph becomes a child of the focused node. -/
theorem AtL.paragraph {E : Env} {S : SectionData} {os : List Frame} {s : LoopState} {f : Frame} {fs : List Frame} {g rest : List Str} {ps : List Piece}
    {c i j : Nat} (hij : i + E.baseIndent = j) (h : At E S os s (f :: fs) (g.map (indentLine i) ++ rest) c)
    (hc : c ≤ 9) (hf : f.Body E j) (hp : Para g ps) (hq : f.st = .BlockQuote → ∀ l, g.head? = some l → ¬ Dashed l) (hr : Ends i rest) :
    Leads E S os s (f.add [paragraphShape j ps] :: fs) rest 0 := h.paragraph_targets hij hc hf hp hq hr

theorem simple_list : Simple Kind.BulletList := ⟨by decide, by decide, by decide, by decide, by decide⟩
theorem simple_item : Simple Kind.BulletListItem := ⟨by decide, by decide, by decide, by decide, by decide⟩

theorem looks_labelled {data : NodeType} {id : Nat} {ls cl : Option (List Str)} {extra : List Str} (st : State) (h : data.kind.hasChildren = true)
    (hls : ls.getD [] = extra ++ ownLabels data) (hi : data.bodyIndent.isSome = true) :
    Looks (TreeNode.new data id ls cl) ⟨st, data, [], extra⟩ [] := by
  unfold Looks TreeNode.new
  rw [if_pos h]
  exact ⟨rfl, rfl, rfl, hls, hi⟩

theorem looks_new {data : NodeType} {id : Nat} {ls cl : Option (List Str)} (st : State) (h : data.kind.hasChildren = true)
    (hls : ls.getD [] = ownLabels data) (hi : data.bodyIndent.isSome = true) : Looks (TreeNode.new data id ls cl) ⟨st, data, [], []⟩ [] :=
  looks_labelled st h hls hi

/-- A new node becomes the focused one. -/
theorem Spine.push {s : PS} {f : Frame} {fs : List Frame} (h : Spine s.doc.tree (f :: fs)) {data : NodeType} (st : State)
    (ha : childIsAllowed f.data.kind data.kind = .ok true) (hs : Simple data.kind) (hk : data.kind.hasChildren = true)
    (hi : data.bodyIndent.isSome = true) (hq : s.doc.hyperref.accumulated = []) :
    ∃ d', P.pushFocus data s = .ok () { s with doc := d' } ∧ Spine d'.tree (⟨st, data, [], []⟩ :: f :: fs) ∧
      d'.notes = s.doc.notes := by
  generalize hz : s.doc.tree = z at h
  cases h with
  | mk hl hab =>
    rename_i n cs path
    obtain ⟨d', cl, h1, h2, h3⟩ := P.pushFocus_ok (s := s) (data := data) (cs := cs) (by rw [hz]; exact hl.2.1)
      (by rw [hz]; show childIsAllowed n.data.kind _ = _; rw [hl.1]; exact ha) hs hq
    refine ⟨d', h1, ?_, h2⟩
    rw [h3, hz]
    exact .mk (looks_new st hk (ownLabels_simple hs).symm hi) (.cons hl hab)

theorem childless_empty {k : Kind} (h : k.hasChildren = true) : k ≠ .EmptyLine ∧ k ≠ .WhiteSpace :=
  ⟨fun e => by rw [e] at h; exact absurd h (by decide), fun e => by rw [e] at h; exact absurd h (by decide)⟩

/-- A new node becomes the focused one and gets the labels of the targets before it. -/
theorem Spine.push_targets {s : PS} {f : Frame} {fs : List Frame} (h : Spine s.doc.tree (f :: fs)) {data : NodeType} (st : State)
    (ha : childIsAllowed f.data.kind data.kind = .ok true) (hs : Simple data.kind) (hk : data.kind.hasChildren = true)
    (hi : data.bodyIndent.isSome = true) :
    ∃ d', P.pushFocus data s = .ok () { s with doc := d' } ∧
      Spine d'.tree (⟨st, data, [], s.doc.hyperref.accumulated⟩ :: f :: fs) ∧ d'.notes = (s.doc.notes.1, []) := by
  generalize hz : s.doc.tree = z at h
  cases h with
  | mk hl hab =>
    rename_i n cs path
    obtain ⟨cl, d', h1, h2, h3, h4⟩ := Rustla.pushFocus_ok (d := s.doc) (data := data) (cs := cs) (by rw [hz]; exact hl.2.1)
      (by rw [hz]; show childIsAllowed n.data.kind _ = _; rw [hl.1]; exact ha)
    obtain ⟨q1, q3⟩ := hyperref_takes s.doc data hs (childless_empty hk).1 (childless_empty hk).2
    rw [hyperref_data _ _ hs.1 hs.2.1] at h4
    rw [q1] at h3
    refine ⟨d', by simp [P.pushFocus, P.orFail, h1], ?_, h3⟩
    rw [h4, hz]
    exact .mk (looks_labelled st hk (by rw [q3, ownLabels_simple hs, List.append_nil]) hi) (.cons hl hab)

/-- A new node with labels of its own becomes the focused one. -/
theorem Spine.push_named {s : PS} {f : Frame} {fs : List Frame} (h : Spine s.doc.tree (f :: fs)) {data : NodeType} (st : State)
    (ha : childIsAllowed f.data.kind data.kind = .ok true) (hk : data.kind.hasChildren = true) (hi : data.bodyIndent.isSome = true)
    (hn : ∀ d : DocTree, d.hyperref.accumulated = [] → (d.hyperrefActions data).2.2.notes = d.notes ∧ (d.hyperrefActions data).2.1 = data ∧
      (d.hyperrefActions data).1.getD [] = ownLabels data) (hq : s.doc.hyperref.accumulated = []) :
    ∃ d', P.pushFocus data s = .ok () { s with doc := d' } ∧ Spine d'.tree (⟨st, data, [], []⟩ :: f :: fs) ∧
      d'.notes = s.doc.notes := by
  generalize hz : s.doc.tree = z at h
  cases h with
  | mk hl hab =>
    rename_i n cs path
    obtain ⟨cl, d', h1, h2, h3, h4⟩ := Rustla.pushFocus_ok (d := s.doc) (data := data) (cs := cs) (by rw [hz]; exact hl.2.1)
      (by rw [hz]; show childIsAllowed n.data.kind _ = _; rw [hl.1]; exact ha)
    obtain ⟨q1, q2, q3⟩ := hn _ hq
    rw [q2] at h4
    rw [q1] at h3
    refine ⟨d', by simp [P.pushFocus, P.orFail, h1], ?_, h3⟩
    rw [h4, hz]
    exact .mk (looks_new st hk q3 hi) (.cons hl hab)

/-- A bullet at the indentation of the focused node opens a list. -/
theorem AtL.open_list {E : Env} {S : SectionData} {os : List Frame} {s : LoopState} {f : Frame} {fs : List Frame} {l : Str} {ls : List Str}
    {c : Nat} {b : Char} {i j : Nat} (hij : i + E.baseIndent = j) (h : At E S os s (f :: fs) (bulletLine b i l :: ls) c)
    (hc : c ≤ 9) (hf : f.Body E j) (hl : TextLine l) (hb : clsBullet b = true) (hw : isWs b = false) :
    Leads E S os s (⟨.BulletList, .BulletList b j (j + 2), [], []⟩ :: f :: fs) (bulletLine b i l :: ls) (c + 1) := by
  obtain ⟨d', h1, h2, h3⟩ := h.spine.push (data := .BulletList b j (j + 2)) .BulletList (hf.kids .BulletList (by decide)) simple_list rfl rfl h.calm
  have hp : parentIndentMatches s.ps.doc.tree.node.data j = .ok .justRight := by
    unfold parentIndentMatches
    rw [h.spine.data, hf.indent]
    simp
  have hres : bodyBullet E (bulletMatch b i l) s.ps = .ok (.push [.BulletList], none) { s.ps with doc := d' } := by
    unfold bodyBullet
    have e1 : (bulletMatch b i l).getD .g2 = [b] := rfl
    have e2 : (bulletMatch b i l).getD .g1 = spaces i := rfl
    have e3 : (bulletMatch b i l).whole.length + E.baseIndent = j + 2 := by
      have : (bulletMatch b i l).whole.length = i + 2 := by simp [bulletMatch]
      omega
    simp only [e1, e2, e3, bind, P.bind, P.lift, P.doc, DocTree.sharedData, hij, List.length_replicate, atIndent, hp,
      h1, pure, P.pure]
  obtain ⟨ts, ht, hts⟩ := hf.table
  have := step_stays (h.stands hc) ht hf.notEnd ((hts _ (noBreak_bullet hb hw i l)).trans (bullet_transition E hb hw i hl)) hres rfl
    (stack := s.stack ++ [.BulletList]) rfl
  refine ⟨_, .step this, ⟨h.here, h2, ?_, ?_, h3.trans h.secs⟩⟩
  · simp [h.stack_cons, stackFor]
  · have := h.count; simp only; omega

end Rustla
