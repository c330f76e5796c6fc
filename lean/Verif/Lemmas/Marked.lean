import Verif.Lemmas.Items
import Verif.Lemmas.Marks
import Verif.Lemmas.Quizzes
/-! # The items of numbered lists and of field lists -/
namespace Rustla
open Spec

/-- A round in which the transition moves forward and opens nodes. -/
theorem AtL.enters {E : Env} {S : SectionData} {os : List Frame} {s : LoopState} {f : Frame} {fs new : List Frame} {l : Str} {ls rest : List Str} {c : Nat}
    (h : At E S os s (f :: fs) (l :: ls) c) (hc : c ≤ 9)
    {ts : List (Re × Transition)} (ht : tableOf E f.st = .ok ts) (hst : f.st ≠ .EOF ∧ f.st ≠ .Failure) {m : Match} {t : Transition}
    (hf : firstTransition l ts = some (m, t)) {n : Nat} {f' : Frame} {lines : List Str}
    (hd : Does E S s.ps.cursor (t m) s.ps (.push (new.map (·.st)).reverse, some n) 0 (new ++ f' :: (fs ++ os)) lines) (hs : f'.st = f.st)
    (h0 : n ≠ 0) (hle : n ≤ (l :: ls).length) (hr : rest = (l :: ls).drop n) :
    Leads E S os s (new ++ f' :: fs) rest 0 := by
  obtain ⟨ps, hres, hp⟩ := hd
  have hstack := h.stack_cons
  have hcur : applyAdvance ps.cursor (some n) = s.ps.cursor.incrementBy n := by
    rw [hp.cursor]; rfl
  have hstep := step_moved (h.stands hc) ht hst hf hres (stack := s.stack ++ (new.map (·.st)).reverse) rfl hcur h0 hle
  refine ⟨_, .step hstep, ⟨?_, ?_, ?_, Nat.le_refl _, hp.secs⟩⟩
  · rw [hr]; exact drop_incr h.here n
  · simpa using hp.spine
  · simp [hstack, hs, hr, stackFor]

/-- Computations one after the other whose effect depends on something that is found out on the way. -/
theorem Does.bindEx {E : Env} {S : SectionData} {c0 : LineCursor} {s : PS} {k : Nat} {fs : List Frame} {lines : List Str} {α β ι : Type} {p : P α} {g : α → P β}
    {a : α} {Q : ι → Prop} {b : ι → β} {k' : Nat} {fs' : ι → List Frame} {ls' : List Str} (h : Does E S c0 p s a k fs lines)
    (h' : ∀ s', Pos E S c0 s' k fs lines → ∃ x, Q x ∧ Does E S c0 (g a) s' (b x) k' (fs' x) ls') :
    ∃ x, Q x ∧ Does E S c0 (p >>= g) s (b x) k' (fs' x) ls' := by
  obtain ⟨s1, h1, h2⟩ := h
  obtain ⟨x, hx, s2, h3, h4⟩ := h' s1 h2
  exact ⟨x, hx, s2, by simp only [Bind.bind, P.bind, h1, h3], h4⟩

/-- A nested parser is run in the focused node. -/
theorem Pos.nest {E : Env} {S : SectionData} {c0 : LineCursor} {s : PS} {k m base : Nat} {f : Frame} {fs : List Frame} {lines g : List Str}
    (h : Pos E S c0 s k (f :: fs) lines) (hN : E.nested = parserOf (m + 1)) (hn : roundsBound (textSize g) ≤ m + 1) (hst : f.st.live = true)
    (hg : g ≠ []) {Q : List Frame → Prop}
    (hrun : ∀ s : LoopState, At ⟨g, base, parserOf m⟩ S fs s [f] g 0 → ∃ frames, Q frames ∧ Leads ⟨g, base, parserOf m⟩ S fs s frames [] 0) :
    ∃ frames, Q frames ∧ Does E S c0 (P.nest E g base f.st) s (frames.map (·.st)).reverse k (frames ++ fs) lines := by
  have hinit := AtL.init (E := ⟨g, base, parserOf m⟩) h.spine h.secs hg s.cursor.sumTotal s.sectionLevel
  obtain ⟨frames, hQ, hrun⟩ := hrun _ hinit
  obtain ⟨d', k1, k2, k3⟩ := nested_run (E := ⟨g, base, parserOf m⟩) rfl hn hst h.spine hrun
  refine ⟨frames, hQ, { s with doc := d' }, ?_, ⟨h.cursor, h.here, k2, k3⟩⟩
  simp only [P.nest, hN, k1]

/-- The frame of an item with the given children. -/
abbrev markFrame (m : Tag) (i : Nat) (ss : List Shape) : Frame := ⟨.ListItem, m.item i, ss, []⟩

theorem markFrame_body (E : Env) (m : Tag) (i : Nat) (ss : List Shape) : (markFrame m i ss).Body E (i + m.width) := by
  cases m <;> exact ⟨.of rfl, .inr (.inr (.inl rfl)), rfl, fun _ => takes_body rfl (by decide)⟩

theorem item_allowed (m : Tag) (i n : Nat) : childIsAllowed (m.list i n).kind (m.item i).kind = .ok true := by cases m <;> rfl

theorem drop_tag (m : Tag) (i : Nat) (l : Str) : (indentLine i (m.text ++ l)).drop (i + m.text.length) = l := by
  have : indentLine i (m.text ++ l) = (spaces i ++ m.text) ++ l := by simp [indentLine]
  rw [this, List.drop_append_of_le_length (by simp)]
  have : (spaces i ++ m.text).length = i + m.text.length := by simp
  rw [← this, List.drop_length, List.nil_append]

/-- The number of an item follows the ones before it. -/
theorem AtL.number {E : Env} {S : SectionData} {os : List Frame} {s : LoopState} {fs : List Frame} {Q : List Frame → Prop} {l : Str} {ls rest : List Str}
    {c i j count : Nat} {n start : Counter} {d : EnumDelims} {ss : List Shape} (hij : i + E.baseIndent = j) {r : Nat} (hN : E.nested = parserOf (r + 1))
    (h : At E S os s (tagFrame (.number d start) j count ss :: fs) (indentLine i ((Tag.number d n).text ++ l) :: ls ++ rest) c)
    (hc : c ≤ 9) (hkind : n.kind = start.kind) (hnum : n.value = count + start.value) (hm : n.Ok) (hl : TextLine l) (hclear : Follows (.number d n) i (ls ++ rest))
    (hls : ∀ x ∈ ls, isBlank x = true ∨ i + (Tag.number d n).width ≤ indentOf x) (hr : Low (i + (Tag.number d n).width) rest)
    (hn : roundsBound (textSize (l :: ls.map (·.drop (i + (Tag.number d n).width)))) ≤ r + 1)
    (hrun : ∀ s : LoopState, At ⟨l :: ls.map (·.drop (i + (Tag.number d n).width)), j + (Tag.number d n).width, parserOf r⟩ S
        (tagFrame (.number d start) j (count + 1) ss :: (fs ++ os)) s [markFrame (.number d n) j []] (l :: ls.map (·.drop (i + (Tag.number d n).width))) 0 →
      ∃ frames, Q frames ∧ Leads ⟨l :: ls.map (·.drop (i + (Tag.number d n).width)), j + (Tag.number d n).width, parserOf r⟩ S
        (tagFrame (.number d start) j (count + 1) ss :: (fs ++ os)) s frames [] 0) :
    ∃ frames, Q frames ∧ Leads E S os s (frames ++ tagFrame (.number d start) j (count + 1) ss :: fs) rest 0 := by
  obtain ⟨x, t, _, k2, k3, k4⟩ := number_transition hl E i d hm
  have e1 := number_indent k3
  have e2 : (Tag.number d n).width = (Tag.number d n).text.length := by simp [Tag.width, Tag.text]
  suffices hdo : ∃ frames, Q frames ∧ Does E S s.ps.cursor (listEnumerator E x) s.ps (.push (frames.map (·.st)).reverse, some (ls.length + 1)) 0
      (frames ++ tagFrame (.number d start) j (count + 1) ss :: (fs ++ os)) (indentLine i ((Tag.number d n).text ++ l) :: ls ++ rest) by
    obtain ⟨frames, hQ, hdo⟩ := hdo
    exact ⟨frames, hQ, AtL.enters (ls := ls ++ rest) (n := ls.length + 1) (f' := tagFrame (.number d start) j (count + 1) ss)
      (lines := indentLine i ((Tag.number d n).text ++ l) :: ls ++ rest) h hc (ts := listTable E .EnumeratedList) rfl
      ⟨by simp [Tag.state], by simp [Tag.state]⟩ k2 hdo rfl (by omega) (by simp) (by simp)⟩
  have hp := h.pos
  have hdata := h.spine.data
  unfold listEnumerator
  refine (hp.required (x := asEnumList s.ps.doc.sharedData) (a := (d, start.kind, start.value, count, j)) ?_).bindEx fun s1 p1 => ?_
  · simp only [DocTree.sharedData]; rw [hdata]; rfl
  have hcap : enumCaptures x (some start.kind) true false count start.value = .ok (some (n.value, start.kind, d)) := by
    rw [counter_reads hm k3]
    unfold counterMeans
    split
    · simp [hnum]
    · simp [hkind]
  dsimp only
  have key : Does E S s.ps.cursor (P.lift (enumCaptures x (some start.kind) true false count start.value)) s1 (some (n.value, start.kind, d)) 0
      (tagFrame (.number d start) j count ss :: (fs ++ os)) (indentLine i ((Tag.number d n).text ++ l) :: ls ++ rest) :=
    ⟨s1, by simp only [P.lift, hcap, Bool.false_eq_true, if_false], p1⟩
  refine key.bindEx fun s2 p2 => ?_
  refine (p2.required rfl).bindEx fun s3 p3 => ?_
  dsimp only
  have hval := follows_valid (ps := s3) p3.here hclear (number := n.value) (kind := start.kind) (listKind := start.kind) (inItem := true) (item := count) (start := start.value)
    fun _ => ⟨hnum, by simp⟩
  have key2 : Does E S s.ps.cursor P.cursor s3 s3.cursor 0
      (tagFrame (.number d start) j count ss :: (fs ++ os)) (indentLine i ((Tag.number d n).text ++ l) :: ls ++ rest) := ⟨s3, rfl, p3⟩
  refine key2.bindEx fun s4 p4 => ?_
  have e3 : (x.getD .indent).length + E.baseIndent = i + E.baseIndent := by rw [e1]; simp
  rw [e3]
  have key3 : Does E S s.ps.cursor (P.lift (isEnumeratedListItem E.src s3.cursor E.baseIndent (i + E.baseIndent) n.value start.kind d start.kind true count start.value)) s4 true 0
      (tagFrame (.number d start) j count ss :: (fs ++ os)) (indentLine i ((Tag.number d n).text ++ l) :: ls ++ rest) :=
    ⟨s4, by simp only [P.lift, hval], p4⟩
  refine key3.bindEx fun s5 p5 => ?_
  rw [if_neg (by simp), if_pos ⟨rfl, rfl, hij.symm, hnum⟩]
  refine (p5.mapData (g := addItem) (tag_simple (.number d start) j count) (tag_simple (.number d start) j (count + 1)) rfl).bindEx fun s6 p6 => ?_
  have hitem : (Tag.number d n).item j = .EnumeratedListItem d start.kind n.value j (j + (Tag.number d n).width) := by rw [← hkind]; rfl
  have e4 : x.whole.length + E.baseIndent = j + (Tag.number d n).width := by rw [k4]; omega
  rw [e4, hij, k4, ← hitem]
  refine (p6.open (f := tagFrame (.number d start) j (count + 1) ss) (data := (Tag.number d n).item j) .ListItem (item_allowed (.number d start) j _) (item_simple _ _) rfl rfl).bindEx fun s7 p7 => ?_
  have hread := indented_reads (E := E) (s := s7) (k := i + (Tag.number d n).width) (first := some (i + (Tag.number d n).width))
    (by simp only [Tag.width]; omega) p7.here hls hr (.inr rfl)
  have e5 : (indentLine i ((Tag.number d n).text ++ l)).drop (i + (Tag.number d n).width) = l := by rw [e2]; exact drop_tag _ _ _
  rw [List.map_cons, e5] at hread
  refine Does.bindEx (a := (l :: ls.map (·.drop (i + (Tag.number d n).width)), ls.length + 1)) ⟨s7, hread, p7⟩ fun s8 p8 => ?_
  dsimp only
  obtain ⟨frames, hQ, hd⟩ := p8.nest (f := markFrame (.number d n) j []) hN hn rfl (by simp) hrun
  exact ⟨frames, hQ, hd.bind fun s9 p9 => p9.pure _⟩

/-- The first paragraph of an item is read up to a blank line. -/
theorem readIndented_tag {src : List Str} {off i w : Nat} {m : Tag} {l : Str} {ls rest : List Str} (hw : 0 < w)
    (h : src.drop off = indentLine i (m.text ++ l) :: ls.map (indentLine (i + w)) ++ rest) (hls : ∀ x ∈ ls, TextLine x)
    (hr : Ends (i + w) rest) :
    ∃ bf, readIndentedBlock src off true true (some (i + w)) (some (i + m.text.length)) false =
      .ok (.ok (l :: ls) (i + w) (ls.length + 1) bf) := by
  have hne : src.isEmpty = false := by
    cases src with
    | nil => simp at h
    | cons => rfl
  have hlen : ¬ src.length < off := by
    intro hlt
    rw [List.drop_eq_nil_of_le (by omega)] at h
    simp at h
  obtain ⟨h1, h2⟩ := readIndentedLoop_plain (by omega) hls hr (some (indentLine i (m.text ++ l)))
  have hstrip : stripBlock (some (i + m.text.length)) (i + w) (indentLine i (m.text ++ l) :: ls.map (indentLine (i + w))) = l :: ls := by
    simp only [stripBlock, drop_tag, List.map_map]
    congr 1
    conv => rhs; rw [← List.map_id ls]
    refine List.map_congr_left fun x _ => ?_
    simp [drop_indentLine]
  rw [List.cons_append] at h
  simp only [readIndentedBlock, hne, Bool.false_eq_true, if_false, hlen, Option.or, h, h1, h2, if_true, hstrip]
  exact ⟨_, rfl⟩

theorem Spec.Snug.inset {t : Str} (h : Snug t) : Inset t := h.1

/-- A new item of the field list in focus. -/
theorem AtL.field {E : Env} {S : SectionData} {os : List Frame} {s : LoopState} {fs : List Frame} {l : Str} {ls rest : List Str} {ps : List Piece}
    {c r i j w : Nat} {m0 : Tag} {name : List Piece} {count : Nat} {ss : List Shape} (hij : i + E.baseIndent = j) (hN : E.nested = parserOf (r + 1))
    (hn : roundsBound (textSize (l :: ls)) ≤ r + 1) (hm0 : m0.list j count = .FieldList j) (hst0 : m0.state = .FieldList)
    (h : At E S os s (tagFrame m0 j count ss :: fs) (indentLine i ((Tag.field name w).text ++ l) :: ls.map (indentLine (i + w)) ++ rest) c)
    (hc : c ≤ 9) (hm : (Tag.field name w).Ok (l :: ls)) (hp : Para (l :: ls) ps) (hr : Ends (i + w) rest)
    (hlow : ∀ x, rest.head? = some x → isBlank x = true ∨ indentOf x < i + 1) :
    Leads E S os s (markFrame (.field name w) j [paragraphShape (j + w) ps] :: tagFrame m0 j count ss :: fs) rest 0 := by
  obtain ⟨hpc, hsn, hcol, hw, hlen⟩ := id hm
  have hmatch := (field_transition hm hp.lines.1.toTextLine E i).2
  have e1 : (fieldMatch name i l).getD .g1 = spaces i := rfl
  have e2 : (fieldMatch name i l).getD .g2 = piecesSource name := rfl
  have e3 : (fieldMatch name i l).whole.length = i + (Tag.field name w).text.length := by simp [fieldMatch, Tag.text]
  have e4 : (Tag.field name w).text.length = (piecesSource name).length + 3 := by simp [Tag.text]
  have hbody : indentFromNextLine E.src E.baseIndent (i + E.baseIndent) (i + (Tag.field name w).text.length + E.baseIndent) s.ps.cursor = j + w := by
    have hnext : E.src[s.ps.cursor.relativeOffset + 1]? = (ls.map (indentLine (i + w)) ++ rest).head? := by
      have := congrArg (·[1]?) h.here
      rw [List.head?_eq_getElem?]
      simpa using this
    unfold indentFromNextLine
    rw [hnext]
    cases ls with
    | nil =>
      have hw' := hlen (by simp)
      cases hh : rest.head? with
      | none => simp only [List.map_nil, List.nil_append, hh]; omega
      | some x =>
        simp only [List.map_nil, List.nil_append, hh]
        rcases hlow x hh with hb | hi
        · rw [if_pos hb]; omega
        · cases isBlank x
          · simp only [Bool.false_eq_true, if_false]
            rw [if_pos (by omega)]; omega
          · simp only [if_true]; omega
    | cons y ys =>
      simp only [List.map_cons, List.cons_append, List.head?_cons]
      obtain ⟨a, t, rfl, ha⟩ := (hp.lines.2 y (by simp)).cons
      have hb : isBlank (indentLine (i + w) (a :: t)) = false := indented_not_blank ha _
      have hi : indentOf (indentLine (i + w) (a :: t)) = i + w := indentOf_indented ha _
      simp only [hb, hi, Bool.false_eq_true, if_false]
      rw [if_neg (by omega)]; omega
  have ht : tableOf E (tagFrame m0 j count ss).st = .ok (listTable E .FieldList) := by
    show tableOf E m0.state = _
    rw [hst0]; rfl
  have hns : (tagFrame m0 j count ss).st ≠ .EOF ∧ (tagFrame m0 j count ss).st ≠ .Failure := by
    show m0.state ≠ _ ∧ m0.state ≠ _
    rw [hst0]; simp
  refine AtL.enters (new := [markFrame (.field name w) j [paragraphShape (j + w) ps]]) (ls := ls.map (indentLine (i + w)) ++ rest) (n := ls.length + 1)
    (f' := tagFrame m0 j count ss)
    (lines := indentLine i ((Tag.field name w).text ++ l) :: ls.map (indentLine (i + w)) ++ rest) h hc ht hns hmatch ?_ rfl
    (by omega) (by simp) (by simp)
  have hp0 := h.pos
  have hdata := h.spine.data
  unfold listFieldMarker
  have key : Does E S s.ps.cursor P.cursor s.ps s.ps.cursor 0
      (tagFrame m0 j count ss :: (fs ++ os)) (indentLine i ((Tag.field name w).text ++ l) :: ls.map (indentLine (i + w)) ++ rest) := ⟨s.ps, rfl, hp0⟩
  simp only [e1, e2, e3, List.length_replicate]
  refine key.bind fun s1 p1 => ?_
  rw [hbody]
  refine (p1.required (x := asFieldList s1.doc.sharedData) (a := j) ?_).bind fun s2 p2 => ?_
  · simp only [DocTree.sharedData]; rw [p1.spine.data]; show asFieldList (m0.list j count) = _; rw [hm0]; rfl
  rw [if_pos hij.symm]
  refine (p2.inlineLine hpc hsn.inset).bind fun s3 p3 => ?_
  rw [inset_nodes hsn.inset]
  simp only [Bool.false_eq_true, if_false]
  rw [hij]
  refine (p3.open (data := (Tag.field name w).item j) .ListItem (by show childIsAllowed (m0.list j count).kind _ = _; rw [hm0]; rfl) (item_simple _ _) rfl rfl).bind fun s4 p4 => ?_
  obtain ⟨bf, hread⟩ := readIndented_tag (m := .field name w) hw p4.here hp.lines.2 hr
  unfold parseFirstNodeBlock
  simp only [Option.getD_some]
  have c1 : checkedSub (i + (Tag.field name w).text.length + E.baseIndent) E.baseIndent "mod.rs parse_first_node_block" = .ok (i + (Tag.field name w).text.length) := by
    unfold checkedSub; rw [if_neg (by omega)]; congr 1; omega
  have c2 : checkedSub (j + w) E.baseIndent "mod.rs parse_first_node_block" = .ok (i + w) := by
    unfold checkedSub; rw [if_neg (by omega)]; congr 1; omega
  refine Does.bind (a := ([.ListItem], ls.length + 1)) (k := 0) (fs := [markFrame (.field name w) j [paragraphShape (j + w) ps]] ++ (tagFrame m0 j count ss :: (fs ++ os)))
    (lines := indentLine i ((Tag.field name w).text ++ l) :: ls.map (indentLine (i + w)) ++ rest) ?_ fun s5 p5 => p5.pure _
  refine Does.bind (a := i + (Tag.field name w).text.length) ⟨s4, by simp only [P.lift, c1], p4⟩ fun s5 p5 => ?_
  refine Does.bind (a := i + w) ⟨s5, by simp only [P.lift, c2], p5⟩ fun s6 p6 => ?_
  obtain ⟨bf, hread⟩ := readIndented_tag (m := .field name w) hw p6.here hp.lines.2 hr
  refine Does.bind (a := (l :: ls, ls.length + 1)) ⟨s6, by simp only [P.indentedBlock, hread], p6⟩ fun s7 p7 => ?_
  dsimp only
  have hrun : ∀ s9 : LoopState, At ⟨l :: ls, j + w, parserOf r⟩ S (tagFrame m0 j count ss :: (fs ++ os)) s9 [markFrame (.field name w) j []] (l :: ls) 0 →
      ∃ frames, frames = [markFrame (.field name w) j [paragraphShape (j + w) ps]] ∧
        Leads ⟨l :: ls, j + w, parserOf r⟩ S (tagFrame m0 j count ss :: (fs ++ os)) s9 frames [] 0 := by
    intro s9 a9
    refine ⟨_, rfl, ?_⟩
    have a9 : At ⟨l :: ls, j + w, parserOf r⟩ S (tagFrame m0 j count ss :: (fs ++ os)) s9 (markFrame (.field name w) j [] :: []) ((l :: ls).map (indentLine 0) ++ []) 0 := by
      have : (l :: ls).map (indentLine 0) ++ [] = l :: ls := by
        rw [List.append_nil]
        conv => rhs; rw [← List.map_id (l :: ls)]
        exact List.map_congr_left fun x _ => rfl
      rw [this]; exact a9
    exact AtL.paragraph (E := ⟨l :: ls, j + w, parserOf r⟩) (i := 0) (by simp) a9 (by omega) (markFrame_body _ (.field name w) j []) hp (fun e => by cases e) (fun x hx => by cases hx)
  obtain ⟨frames, rfl, hd⟩ := p7.nest (f := markFrame (.field name w) j []) (base := j + w) (Q := (· = [markFrame (.field name w) j [paragraphShape (j + w) ps]])) hN hn rfl (by simp) hrun
  exact hd.bind fun s8 p8 => p8.pure _

end Rustla
