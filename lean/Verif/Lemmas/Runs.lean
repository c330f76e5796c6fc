import Verif.Lemmas.Marked
import Verif.Lemmas.Quotes
import Verif.Lemmas.Terms
import Verif.Lemmas.Notes
/-! # Closing open nodes, and the blocks of lists and directives -/
namespace Rustla
open Spec

/-- The nodes that closing the open nodes one after the other leaves in the node below them. -/
def shut (acc : List Shape) : List Frame → List Shape
  | [] => acc
  | e :: es => shut [.labelled e.data e.labels (e.done ++ acc)] es

theorem shut_add (e : Frame) (acc : List Shape) (es : List Frame) : shut [] (e.add acc :: es) = shut acc (e :: es) := by
  simp [shut, Frame.add]

theorem shut_append (e : Frame) : ∀ (es : List Frame) (acc : List Shape),
    shut acc (es ++ [e]) = [.labelled e.data e.labels (e.done ++ shut acc es)]
  | [], _ => rfl
  | _ :: es, _ => shut_append e es _

/-- Lines that start with a block at an indentation: a paragraph, an item of a list with the given mark, or another
block that leaves nodes with a larger indentation. -/
inductive Starts (E : Env) (i : Nat) : Option Tag → List Str → Prop
  | para {l : Str} {ls : List Str} : FirstLine l → ¬ str! "::newcol" <+: l → (∀ n, ls.head? = some n → reLine.isMatch n = false) →
      Starts E i none (indentLine i l :: ls)
  | tag {m : Tag} {g : List Str} {l : Str} {ls : List Str} : m.Ok g → TextLine l → (m.numbered → Follows m i ls) →
      Starts E i (some m) (indentLine i (m.text ++ l) :: ls)
  | other {l : Str} {ls : List Str} : (∃ x r, l = spaces i ++ x :: r ∧ isWs x = false) → (∀ st, NoBreak st l) → Unmarked l →
      (∀ ps : PS, E.src.drop ps.cursor.relativeOffset = l :: ls →
        ∃ m tr act, firstTransition l (bodyTable E) = some (m, tr) ∧ tr m ps = atIndent (i + E.baseIndent) act ps) →
      Starts E i none (l :: ls)

/-- The states in which blocks are read. -/
def State.blocky (st : State) : Prop :=
  st = .ListItem ∨ st = .Admonition ∨ st = .Body ∨ st = .Figure ∨ st = .AplusMultiCol ∨ st = .BlockQuote ∨ st = .Footnote ∨ st = .Citation

theorem State.blocky.table {st : State} (h : st.blocky) (E : Env) :
    BodyLike E st ∧ (st ≠ .EOF ∧ st ≠ .Failure) ∧ ¬ st.listing := by
  rcases h with rfl | rfl | rfl | rfl | rfl | rfl | rfl | rfl
  all_goals refine ⟨?_, by simp, by simp [State.listing]⟩
  all_goals first | exact .of rfl | exact .columns E | exact .quote E

/-- The states that are left at lines with a smaller indentation. -/
def State.deep (st : State) : Prop := st.blocky ∨ st = .AplusQuestionnaire

/-- The first line of a block. -/
theorem Starts.visible {E : Env} {i : Nat} {b : Option Tag} {lines : List Str} (h : Starts E i b lines) :
    ∃ x r ls, lines = (spaces i ++ x :: r) :: ls ∧ isWs x = false := by
  cases h with
  | para hl _ _ =>
    obtain ⟨x, r, rfl, hx⟩ := hl.toTextLine.cons
    exact ⟨x, r, _, rfl, hx⟩
  | @tag m g l ls hm hl _ =>
    obtain ⟨x, t, e, hx⟩ := tag_cons hm
    exact ⟨x, t ++ l, ls, by rw [e]; rfl, hx⟩
  | other hv _ _ _ =>
    obtain ⟨x, r, rfl, hx⟩ := hv
    exact ⟨x, r, _, rfl, hx⟩

/-- A line that starts like an attribution acts at its indentation. -/
theorem attribution_acts {E : Env} {i : Nat} {x : Char} {r : Str} (hx : isWs x = false) {m : Match}
    (hc : reAttribution.captures (spaces i ++ x :: r) = some m) (ps : PS) :
    ∃ act, attribution E m ps = atIndent (i + E.baseIndent) act ps := by
  have hg : (m.getD .g1).length = i := by
    unfold Re.captures at hc
    cases hr : reAttribution.run (spaces i ++ x :: r) [] with
    | nil => rw [hr] at hc; cases hc
    | cons q zs =>
      have := (attribution_run (t := r) hx (q := q) (by rw [hr]; simp)).2
      rw [hr] at hc
      simp only [Option.some.injEq] at hc
      rw [← hc]
      simp [Match.getD, Match.get, this, spaces]
  unfold attribution
  simp only [hg]
  exact ⟨_, rfl⟩

/-- In a block quote, lines act at their indentation whether they start like an attribution or not. -/
theorem quote_acts {E : Env} {i : Nat} {x : Char} {r : Str} {ps : PS} (hx : isWs x = false)
    (h : ∃ m tr act, firstTransition (spaces i ++ x :: r) (bodyTable E) = some (m, tr) ∧ tr m ps = atIndent (i + E.baseIndent) act ps) :
    ∃ m tr act, firstTransition (spaces i ++ x :: r) ((reBlankLine, emptyLine) :: (reAttribution, attribution E) :: bodyRest E) = some (m, tr) ∧
      tr m ps = atIndent (i + E.baseIndent) act ps := by
  have hb := blankLine_dead (indented_not_blank (t := r) hx i)
  cases hc : reAttribution.captures (spaces i ++ x :: r) with
  | none =>
    obtain ⟨m, tr, act, h1, h2⟩ := h
    refine ⟨m, tr, act, ?_, h2⟩
    rw [← h1]
    show _ = firstTransition _ ((reBlankLine, emptyLine) :: bodyRest E)
    simp only [firstTransition, hb, hc]
  | some m =>
    obtain ⟨act, hact⟩ := attribution_acts (E := E) hx hc ps
    exact ⟨m, attribution E, act, by simp only [firstTransition, hb, hc], hact⟩

/-- The first line of a block acts at its indentation. -/
theorem Starts.acts {E : Env} {i : Nat} {b : Option Tag} {l : Str} {ls : List Str} (h : Starts E i b (l :: ls)) {ps : PS}
    (hsrc : E.src.drop ps.cursor.relativeOffset = l :: ls) {st : State} {ts : List (Re × Transition)} (ht : tableOf E st = .ok ts)
    (hts : ∀ l, NoBreak st l → firstTransition l ts = firstTransition l (bodyTable E)) :
    ∃ m tr act, firstTransition l ts = some (m, tr) ∧ tr m ps = atIndent (i + E.baseIndent) act ps := by
  have hbody : ∃ m tr act, firstTransition l (bodyTable E) = some (m, tr) ∧ tr m ps = atIndent (i + E.baseIndent) act ps := by
    cases h with
    | para hl _ hn => exact text_acts hsrc hl hn
    | tag hm hl hc =>
      obtain ⟨x, tr, act, k1, k2⟩ := tag_goes hsrc hm hl hc
      exact ⟨x, tr, _, k1, k2⟩
    | other _ _ _ hx => exact hx ps hsrc
  by_cases hq : st = .BlockQuote
  · subst hq
    obtain rfl : _ = ts := Except.ok.inj ht
    obtain ⟨x, r, ls', e, hx⟩ := h.visible
    obtain ⟨rfl, rfl⟩ := List.cons.inj e
    exact quote_acts hx hbody
  · have hno : NoBreak st l := by
      cases h with
      | para hl hnb hn => exact noBreak_text hl.toTextLine hnb (fun e => absurd e hq) i
      | tag hm hl hc => exact noBreak_tag hm st i _
      | other _ hbr _ _ => exact hbr st
    rw [hts _ hno]
    exact hbody

/-- The open node is closed by lines that start with the given block at the given indentation. -/
def Shuts (i : Nat) (b : Option Tag) (e : Frame) : Prop :=
  (e.st.deep ∧ ∃ t, e.data.bodyIndent = some t ∧ i < t) ∨
  (∃ k, Listed e.st e.data k ∧ ∀ m, b = some m → ¬ Continues i m e.data)

theorem Shuts.add {i : Nat} {b : Option Tag} {e : Frame} (h : Shuts i b e) (ss : List Shape) : Shuts i b (e.add ss) := h

/-- Closing one open node. -/
theorem AtL.shut_one {E : Env} {S : SectionData} {os : List Frame} {s : LoopState} {e f : Frame} {fs : List Frame} {lines : List Str} {c i j : Nat}
    {b : Option Tag} (hij : i + E.baseIndent = j) (h : At E S os s (e :: f :: fs) lines c) (hc : c ≤ 9) (hs : Starts E i b lines)
    (he : Shuts j b e) : Leads E S os s (f.add [e.shape] :: fs) lines (c + 1) := by
  rcases he with ⟨h1, t, h2, h3⟩ | ⟨k, h1, h2⟩
  · rcases h1 with h1 | h1
    swap
    · obtain ⟨x, r, ls, rfl, hx⟩ := hs.visible
      exact h.leave_quiz hc h1 h2 hx (by omega)
    obtain ⟨⟨ts, ht, hts⟩, hst, _⟩ := h1.table E
    obtain ⟨x, r, ls, rfl, hx⟩ := hs.visible
    obtain ⟨m, tr, act, e1, e2⟩ := hs.acts h.here ht hts
    obtain ⟨d', k1, k2, k3⟩ := h.spine.leave
    have e3 := atIndent_low (k := i + E.baseIndent) h.spine h2 (by rw [hij]; exact h3) act
    exact h.left hc (n := s.ps.sectionLevel) ht hst e1 (by rw [e2, e3]; exact k1) k2 k3
  · obtain ⟨x, r, ls, e, hx⟩ := hs.visible
    have hb : isBlank (spaces i ++ x :: r) = false := indented_not_blank hx i
    cases hs with
    | @para l ls' hl hnb hn => exact (h.leave_unmarked hc h1.listing (h1.listing.unmarked E (unmarked_text hl i) (by rw [(List.cons.inj e).1]; exact hb))).more
    | tag hm hl hcl => exact h.leave_tag hij hc h1 (h2 _ rfl) hm hl hcl
    | other _ hbr hnb _ => exact (h.leave_unmarked hc h1.listing (h1.listing.unmarked E hnb (by rw [(List.cons.inj e).1]; exact hb))).more

/-- Closing open nodes. -/
theorem AtL.unwind {E : Env} {S : SectionData} {os : List Frame} {f : Frame} {fs : List Frame} {lines : List Str} {i j : Nat} {b : Option Tag}
    (hij : i + E.baseIndent = j) (hs : Starts E i b lines) : ∀ (n : Nat) (ex : List Frame) {s : LoopState} {c : Nat}, ex.length = n →
      (∀ e ∈ ex, Shuts j b e) → At E S os s (ex ++ f :: fs) lines c → c + n ≤ 10 →
      Leads E S os s (f.add (shut [] ex) :: fs) lines (c + n) := by
  intro n
  induction n with
  | zero =>
    intro ex s c hn _ h _
    obtain rfl : ex = [] := List.length_eq_zero_iff.mp hn
    rw [shut, Frame.add_nil]; exact h.leads
  | succ n ih =>
    intro ex s c hn he h hc
    cases ex with
    | nil => simp at hn
    | cons e ex =>
      cases ex with
      | nil =>
        obtain rfl : n = 0 := by simpa using hn.symm
        have := AtL.shut_one hij h (by omega) hs (he e (by simp))
        have e2 : shut [] [e] = [e.shape] := by simp [shut, Frame.shape]
        rw [e2]; exact this
      | cons g es =>
        obtain ⟨s', k1, k2⟩ := AtL.shut_one (fs := es ++ f :: fs) hij h (by omega) hs (he e (by simp))
        have := ih (g.add [e.shape] :: es) (by simpa using hn) (fun x hx => by
          rcases List.mem_cons.mp hx with rfl | hx
          · exact (he g (by simp)).add _
          · exact he x (by simp [hx])) k2 (by omega)
        have e2 : shut [] (g.add [e.shape] :: es) = shut [] (e :: g :: es) := by
          rw [shut_add]; simp [shut, Frame.shape]
        rw [e2] at this
        have e3 : c + 1 + n = c + (n + 1) := by omega
        rw [e3] at this
        exact k1.leads this

/-- Open nodes of blocks that are indented by at least the given number of spaces. -/
def Deep (i : Nat) (e : Frame) : Prop :=
  (e.st.deep ∧ ∃ t, e.data.bodyIndent = some t ∧ i < t) ∨
  (∃ i', Listed e.st e.data i' ∧ i ≤ i')

theorem Deep.mono {i j : Nat} {e : Frame} (h : Deep i e) (hj : j ≤ i) : Deep j e := by
  rcases h with ⟨h1, t, h2, h3⟩ | ⟨i', h1, h2⟩
  · exact .inl ⟨h1, t, h2, by omega⟩
  · exact .inr ⟨i', h1, by omega⟩

/-- Deeply nested nodes are closed by every block with a smaller indentation. -/
theorem Deep.shuts {i j : Nat} {e : Frame} (h : Deep i e) (hj : j < i) (b : Option Tag) : Shuts j b e := by
  rcases h with ⟨h1, t, h2, h3⟩ | ⟨i', h1, h2⟩
  · exact .inl ⟨h1, t, h2, by omega⟩
  · exact .inr ⟨i', h1, fun m _ hc => by have := h1.continues hc; omega⟩

/-- They are closed by blocks other than items of lists with the same indentation. -/
theorem Deep.shuts_para {i : Nat} {e : Frame} (h : Deep i e) : Shuts i none e := by
  rcases h with ⟨h1, t, h2, h3⟩ | ⟨i', h1, h2⟩
  · exact .inl ⟨h1, t, h2, by omega⟩
  · exact .inr ⟨i', h1, fun _ h => by simp at h⟩

/-- Open nodes that are closed by every block with the given indentation. -/
def Inner (i : Nat) (e : Frame) : Prop := Deep i e ∧ ∀ b, Shuts i b e

theorem Deep.inner {i j : Nat} {e : Frame} (h : Deep i e) (hj : j < i) : Inner j e := ⟨h.mono (by omega), h.shuts hj⟩

theorem Ends.mono {i j : Nat} {ls : List Str} (h : Ends i ls) (hij : i ≤ j) : Ends j ls := by
  intro l hl
  rcases h l hl with h | ⟨⟨k, c, t, hk, e, hc⟩, hn⟩
  · exact .inl h
  · exact .inr ⟨⟨k, c, t, by omega, e, hc⟩, hn⟩

theorem Ends.not_line {i : Nat} {ls : List Str} (h : Ends i ls) : ∀ n, ls.head? = some n → reLine.isMatch n = false := by
  intro n hn
  rcases h n hn with h | ⟨_, h⟩
  · exact blank_not_line h
  · exact h

theorem BlankLast.right {a b : List Str} (h : BlankLast (a ++ b)) : BlankLast b := by
  intro l hl
  exact h l (by rw [List.getLast?_append, hl]; rfl)

theorem BlankLast.left {a : List Str} (h : BlankLast (a ++ [])) : BlankLast a := by rwa [List.append_nil] at h

theorem not_blankLast {a : List Str} (hne : a ≠ []) (h : ∀ l ∈ a, isBlank l = false) : ¬ BlankLast a := by
  intro hb
  cases hg : a.getLast? with
  | none => exact hne (List.getLast?_eq_none_iff.mp hg)
  | some l =>
    have := hb l hg
    rw [h l (List.mem_of_getLast? hg)] at this
    cases this

theorem para_not_blankLast {g : List Str} {i : Nat} (hne : g ≠ []) (hg : TextLines g) : ¬ BlankLast (g.map (indentLine i)) := by
  refine not_blankLast (by simpa using hne) fun l hl => ?_
  obtain ⟨x, hx, rfl⟩ := List.mem_map.mp hl
  obtain ⟨c, t, rfl, hc⟩ := (hg.all x hx).cons
  exact indented_not_blank hc i

theorem tag_not_blankLast {g : List Str} {i : Nat} {m : Tag} (hm : m.Ok g) (hne : g ≠ []) (hg : TextLines g) :
    ¬ BlankLast (m.lines i g) := by
  cases g with
  | nil => exact absurd rfl hne
  | cons l g =>
    refine not_blankLast (by simp [Tag.lines]) fun x hx => ?_
    rcases List.mem_cons.mp hx with rfl | hx
    · exact (front_tag hm hg.1.toTextLine i).not_blank
    · obtain ⟨y, hy, rfl⟩ := List.mem_map.mp hx
      exact (front_text (hg.2 y hy) _).not_blank

/-- The number of rounds without progress in which a title closes nodes. -/
def headCost (ex : List Frame) : Nat := ex.countP fun e => decide (¬ e.st.listing)

theorem headCost_append (a b : List Frame) : headCost (a ++ b) = headCost a + headCost b := by simp [headCost, List.countP_append]

theorem headCost_list {e : Frame} (h : e.st.listing) : headCost [e] = 0 := by simp [headCost, h]

theorem headCost_one (e : Frame) : headCost [e] ≤ 1 := by
  have := List.countP_le_length (p := fun x : Frame => decide (¬ x.st.listing)) (l := [e])
  simpa [headCost] using this

theorem ends_gap {i : Nat} {gap after : List Str} (h : ∀ l ∈ gap, isBlank l = true) (h' : gap = [] → Ends i after) :
    Ends i (gap ++ after) := by
  cases gap with
  | nil => exact h' rfl
  | cons b gap =>
    intro l hl
    obtain rfl : b = l := by simpa using hl
    exact .inl (h b (by simp))

/-- The first line of a paragraph. -/
theorem starts_para {E : Env} {i : Nat} {g after : List Str} (hne : g ≠ []) (hg : TextLines g) (hb : ∀ l, g.head? = some l → ¬ str! "::newcol" <+: l)
    (ha : Ends i after) : Starts E i none (g.map (indentLine i) ++ after) := by
  match g, hne with
  | [l], _ => exact .para hg.1 (hb l rfl) ha.not_line
  | l :: l' :: g, _ =>
    refine .para (ls := indentLine i l' :: (g.map (indentLine i) ++ after)) hg.1 (hb l rfl) fun n hn => ?_
    obtain rfl : indentLine i l' = n := by simpa using hn
    exact (hg.2 l' (by simp)).indented_not_line i

theorem starts_tag {E : Env} {i : Nat} {m : Tag} {g after : List Str} (hm : m.Ok g) (hne : g ≠ []) (hg : TextLines g)
    (hc : m.numbered → g.length = 1 → Follows m i after) : Starts E i (some m) (m.lines i g ++ after) := by
  match g, hne with
  | [l], _ => exact .tag (ls := after) hm hg.1.toTextLine fun h => hc h rfl
  | l :: l' :: g, _ =>
    refine .tag (ls := (l' :: g).map (indentLine (i + m.width)) ++ after) hm hg.1.toTextLine fun h => .inl fun x hx => .inr ?_
    obtain rfl : indentLine (i + m.width) l' = x := by simpa using hx
    rw [(front_text (hg.2 l' (by simp)) _).indent]
    cases m with
    | bullet b => exact h.elim
    | field name w => exact h.elim
    | number d n => simp only [Tag.width]; omega

theorem Ends.clear {i : Nat} {ls : List Str} (h : Ends i ls) : Clear i ls := by
  intro x hx
  rcases h x hx with h | ⟨⟨k, c, t, hk, e, hc⟩, _⟩
  · exact .inl h
  · refine .inr ?_
    rw [e, indentOf_indented hc k]; omega

theorem item_numbered {m : Tag} {g : List Str} {ps : List Piece} {gap : List Str} {body : Blocks} {rest : Items} (h : rest.numbered) :
    (Items.item m g ps gap body rest).numbered := by
  obtain ⟨m', h1, h2⟩ := h
  exact ⟨m', by simp [Items.last, h1], h2⟩

/-- The first line of the items of a list. -/
theorem starts_items {E : Env} {i : Nat} {m : Tag} {g : List Str} {ps : List Piece} {gap : List Str} {body : Blocks} {rest : Items} {after : List Str}
    (h : (Items.item m g ps gap body rest).Ok)
    (hn : (Items.item m g ps gap body rest).numbered → BlankLast (Items.lines i (.item m g ps gap body rest)) ∨ Ends i after) :
    Starts E i (some m) (m.lines i g ++ (gap ++ (body.lines (i + m.width) ++ (rest.lines i ++ after)))) := by
  obtain ⟨hm, hp, hgap, hnil, hnum, _, hrest⟩ := h
  refine starts_tag hm hp.notEmpty hp.lines fun h1 hone => ?_
  cases gap with
  | cons x gap =>
    refine .inl fun y hy => ?_
    obtain rfl : x = y := by simpa using hy
    exact .inl (hgap x (by simp))
  | nil =>
    obtain rfl := hnil rfl
    cases rest with
    | item m' g' ps' gap' body' rest' =>
      have hs := (hnum h1).1 rfl hone m' rfl
      cases m with
      | bullet _ => exact h1.elim
      | field _ _ => exact h1.elim
      | number d c =>
        cases m' with
        | bullet _ => exact hs.elim
        | field _ _ => exact hs.elim
        | number d' c' =>
          obtain ⟨rfl, ha, ha'⟩ := hs
          obtain ⟨_, hp', _⟩ := hrest
          match g', hp'.notEmpty, hp'.lines with
          | l' :: ls', _, hl' =>
            exact .inr ⟨d', c, c', l', _, rfl, ha, ha', hl'.1.toTextLine, by simp [Items.lines, Blocks.lines, Tag.lines]; rfl⟩
    | nil =>
    refine .inl ?_
    rcases hn ⟨m, rfl, h1⟩ with h | h
    · exact absurd (by simpa [Items.lines, Blocks.lines] using h) (tag_not_blankLast (i := i) hm hp.notEmpty hp.lines)
    · simpa [Items.lines, Blocks.lines] using h.clear


theorem unmarked_dir {d : Dir} (h : d.Ok) (i : Nat) : Unmarked (indentLine i d.marker) := by
  obtain ⟨a, n, ha, e⟩ := h.dots i
  rw [e]
  exact unmarked_dots i _

theorem starts_dir {E : Env} {d : Dir} (h : d.Ok) (i : Nat) (rest : List Str) : Starts E i none (d.lines i ++ rest) := by
  refine .other (front_dir h i).visible (fun _ => noBreak_dir h i) (unmarked_dir h i) fun ps hsrc => ?_
  have hget : E.src[ps.cursor.relativeOffset]? = some (indentLine i d.marker) := by
    have := congrArg (·[0]?) hsrc
    simpa using this
  have e1 : (directiveMatch d i).getD .g1 = spaces i := rfl
  have key : ∃ act, bodyDirective E (directiveMatch d i) ps = atIndent (i + E.baseIndent) act ps := by
    unfold bodyDirective currentLine
    simp only [e1, bind, P.bind, P.offset, hget, pure, P.pure, List.length_replicate]
    exact ⟨_, rfl⟩
  obtain ⟨act, hact⟩ := key
  exact ⟨_, _, act, (directive_transition E h i).1, hact⟩

theorem note_dots (N : Note) (l : Str) : N.text ++ l = str! ".. " ++ ('[' :: (N.label ++ str! "] " ++ l)) := by simp [Note.text]

theorem starts_note {E : Env} {N : Note} {alone : Prop} (h : N.Ok alone) {l : Str} (hl : TextLine l) (i : Nat) (rest : List Str) :
    Starts E i none (indentLine i (N.text ++ l) :: rest) := by
  refine .other (front_note N l i).visible (fun _ => by rw [note_dots]; exact noBreak_dots i _) (by rw [note_dots]; exact unmarked_dots i _) fun ps _ => ?_
  have key : ∃ act, noteAct E N (noteMatch N i l) ps = atIndent (i + E.baseIndent) act ps := by
    unfold noteAct
    cases hfo : N.foot with
    | true =>
      have e1 : (noteMatch N i l).getD .indent = spaces i := by simp [noteMatch, Match.getD, Match.get, hfo]
      have e2 : footnoteKind (noteMatch N i l) = some (.Manual, N.label) := by simp [footnoteKind, noteMatch, Match.get, hfo]
      have e4 : noteLabels ps.doc .Manual N.label = some (normalizeRefname N.label, normalizeRefname N.label) := rfl
      simp only [if_true]
      unfold bodyFootnote
      simp only [e1, e2, P.required, bind, P.bind, pure, P.pure, P.offset, P.doc, e4, List.length_replicate]
      exact ⟨_, rfl⟩
    | false =>
      have e1 : (noteMatch N i l).getD .g1 = spaces i := by simp [noteMatch, Match.getD, Match.get, hfo]
      simp only [Bool.false_eq_true, if_false]
      unfold bodyCitation
      simp only [e1, bind, P.bind, P.offset, List.length_replicate]
      exact ⟨_, rfl⟩
  obtain ⟨act, hact⟩ := key
  exact ⟨_, _, act, note_transition E h hl i, hact⟩

theorem note_not_blankLast {g : List Str} {i : Nat} {N : Note} (hne : g ≠ []) (hg : TextLines g) : ¬ BlankLast (N.lines i g) := by
  cases g with
  | nil => exact absurd rfl hne
  | cons l g =>
    refine not_blankLast (by simp [Note.lines]) fun x hx => ?_
    rcases List.mem_cons.mp hx with rfl | hx
    · exact (front_note N l i).not_blank
    · obtain ⟨y, hy, rfl⟩ := List.mem_map.mp hx
      exact (front_text (hg.2 y hy) _).not_blank

theorem starts_comment {E : Env} {l : Str} (h : Inset l) (h1 : l.head? ≠ some '[') (h2 : l.head? ≠ some '_') (h3 : ¬ str! "::" <:+: l)
    (i : Nat) (rest : List Str) : Starts E i none (indentLine i (str! ".. " ++ l) :: rest) := by
  have hfront : Front i (indentLine i (str! ".. " ++ l)) := by
    obtain ⟨c, t, rfl, hc⟩ := Inset.cons h
    exact front_dots hc i
  refine .other hfront.visible (fun _ => noBreak_dots i _) (unmarked_dots i _) fun ps hsrc => ?_
  have e1 : (commentMatch i l).getD .g1 = spaces i := rfl
  have key : ∃ act, bodyComment E (commentMatch i l) ps = atIndent (i + E.baseIndent) act ps := by
    unfold bodyComment
    simp only [e1, bind, P.bind, P.offset, List.length_replicate]
    exact ⟨_, rfl⟩
  obtain ⟨act, hact⟩ := key
  exact ⟨_, _, act, (comment_transition E h h1 h2 h3 i).1, hact⟩

theorem starts_leaf {E : Env} {L : Leaf} (h : L.Ok) (i : Nat) (rest : List Str) : Starts E i none (L.lines i ++ rest) := by
  cases L with
  | comment l ls => exact starts_comment h.1 h.2.1 h.2.2.1 h.2.2.2.1 i _
  | code d gap ls => simp only [Leaf.lines, List.append_assoc]; exact starts_dir h.1 i _
  | listing d gap ls tail => simp only [Leaf.lines, List.append_assoc]; exact starts_dir h.1 i _
  | formulas d gap g more => simp only [Leaf.lines, List.append_assoc]; exact starts_dir h.1 i _
  | image d => exact starts_dir h.1 i _
  | formula d => exact starts_dir h.1 i _
  | input d => exact starts_dir h.1 i _
  | output d => exact starts_dir h.1 i _

/-- A parser whose nested parser has enough rounds, for lines whose indentation is shifted. -/
structure Fits (E : Env) (n i j : Nat) : Prop where
  shift : i + E.baseIndent = j
  nested : E.nested = parserOf n

theorem Fits.more {E : Env} {n i j : Nat} (h : Fits E n i j) (k : Nat) : Fits E n (i + k) (j + k) := ⟨by have := h.shift; omega, h.nested⟩

/-- A sequence of blocks in an open node is read, and everything it stands for is added to the node. -/
def RunsBlocks (B : Blocks) : Prop :=
  ∀ {E : Env} {S : SectionData} {os : List Frame} {n i j H C : Nat} {f : Frame} {fs ex : List Frame} {after : List Str} {s : LoopState} {c : Nat},
    Fits E n i j → B.Ok → roundsBound (textSize (B.lines i)) ≤ n → (E.baseIndent = 0 ∨ B.Tidy) →
    BlankLast (B.lines i) ∨ Ends i after → Low (i + 1) after → B.height ≤ H → H ≤ 8 → B.cost ≤ C → f.Body E j →
    (f.st = .BlockQuote → B.Undashed) →
    (∀ e ∈ ex, Deep j e) → (∀ m, B.first = some m → ∀ e ∈ ex, Shuts j (some m) e) → (B.quoted → ex = [] ∧ c = 0) → ex.length ≤ H → headCost ex ≤ C →
    c + ex.length ≤ 8 → (B = .nil → c = 0) →
    At E S os s (ex ++ f :: fs) (B.lines i ++ after) c →
    ∃ ex' ss, Leads E S os s (ex' ++ f.add ss :: fs) after 0 ∧ ss ++ shut [] ex' = shut [] ex ++ B.shapes j ∧
      ex'.length ≤ H ∧ (∀ e ∈ ex', Deep j e) ∧ headCost ex' ≤ C

/-- The items of an open list are read. -/
def RunsItems (I : Items) : Prop :=
  ∀ {E : Env} {S : SectionData} {os : List Frame} {m0 : Tag} {n i j H C count : Nat} {ss0 : List Shape} {fs ex : List Frame}
    {after : List Str} {s : LoopState} {c : Nat},
    Fits E n i j → I.Ok → I.chained → (∀ m, I.first = some m → Succeeds j m (m0.list j count)) → roundsBound (textSize (I.lines i)) ≤ n →
    (E.baseIndent = 0 ∨ I.Tidy) → BlankLast (I.lines i) ∨ Ends (i + 1) after → (I.numbered → BlankLast (I.lines i) ∨ Ends i after) →
    Low (i + 1) after → I.height ≤ H → H ≤ 7 → I.cost ≤ C →
    (∀ e ∈ ex, Inner j e) → ex.length ≤ H → headCost ex ≤ C → c + ex.length ≤ 9 → (I = .nil → c = 0) →
    At E S os s (ex ++ tagFrame m0 j count ss0 :: fs) (I.lines i ++ after) c →
    ∃ ex' ss, Leads E S os s (ex' ++ tagFrame m0 j (count + I.count) ss :: fs) after 0 ∧
      ss ++ shut [] ex' = ss0 ++ shut [] ex ++ I.shapes j ∧ ex'.length ≤ H ∧ (∀ e ∈ ex', Inner j e) ∧ headCost ex' ≤ C

/-- The terms of an open definition list are read. -/
def RunsDefs (D : Defs) : Prop :=
  ∀ {E : Env} {S : SectionData} {os : List Frame} {n i H : Nat} {ss0 : List Shape} {fs ex : List Frame} {after : List Str} {s : LoopState} {c : Nat},
    Fits E n i i → D.Ok → roundsBound (textSize (D.lines i)) ≤ n → E.baseIndent = 0 → BlankLast (D.lines i) ∨ Ends (i + 1) after →
    Low (i + 1) after → D.height ≤ H → H ≤ 7 → (∀ e ∈ ex, Deep i e) → ex.length ≤ H → c + ex.length ≤ 9 → (D = .nil → c = 0) →
    At E S os s (ex ++ defsFrame i ss0 :: fs) (D.lines i ++ after) c →
    ∃ ex' ss, Leads E S os s (ex' ++ defsFrame i ss :: fs) after 0 ∧
      ss ++ shut [] ex' = ss0 ++ shut [] ex ++ D.shapes i ∧ ex'.length ≤ H ∧ ∀ e ∈ ex', Deep i e

theorem runs_nil : RunsBlocks .nil := by
  intro E S os n i j H C f fs ex after s c _ _ _ _ _ _ _ _ _ _ _ hdeep _ _ hex hcnt _ hc h
  obtain rfl := hc rfl
  refine ⟨ex, [], ?_, by simp [Blocks.shapes], hex, hdeep, hcnt⟩
  rw [Frame.add_nil]
  exact h.leads

theorem runs_no_items : RunsItems .nil := by
  intro E S os m0 n i j H C count ss0 fs ex after s c _ _ _ _ _ _ _ _ _ _ _ _ hdeep hex hcnt _ hc h
  obtain rfl := hc rfl
  exact ⟨ex, ss0, h.leads, by simp [Items.shapes], hex, hdeep, hcnt⟩

theorem runs_para {g : List Str} {ps : List Piece} {gap : List Str} {rest : Blocks} (hrun : RunsBlocks rest) :
    RunsBlocks (.para g ps gap rest) := by
  intro E S os n i j H C f fs ex after s c hE hB hsz hflat ha hlow hh hH hC hf hun hdeep _ _ hex hcnt hc _ h
  obtain ⟨hp, hgap, hnil, hrest⟩ := hB
  have hends : Ends i (gap ++ (rest.lines i ++ after)) := ends_gap hgap fun e => by
    rw [hnil e] at ha ⊢
    subst e
    rcases ha with ha | ha
    · exact absurd (by simpa [Blocks.lines] using ha) (para_not_blankLast (i := i) hp.notEmpty hp.lines)
    · exact ha
  have e1 : Blocks.lines i (.para g ps gap rest) ++ after = g.map (indentLine i) ++ (gap ++ (rest.lines i ++ after)) := by
    simp [Blocks.lines]
  rw [e1] at h
  obtain ⟨s1, k1, k2⟩ := h.unwind hE.shift (starts_para hp.notEmpty hp.lines hp.noBreak hends) ex.length ex rfl (fun e he => (hdeep e he).shuts_para)
    (by omega)
  obtain ⟨s2, k3, k4⟩ := k2.paragraph hE.shift (by omega) (hf.add _) hp (fun e => (hun e).1) hends
  obtain ⟨s3, k5, k6⟩ := k4.blanks ((hf.add _).add _).readable hgap
  rw [Frame.add_add] at k6
  obtain ⟨ex', ss, k7, k8, k9, k10⟩ := hrun (H := H) (C := C) (ex := []) hE hrest
    (rounds_part hsz (by simp only [Blocks.lines, textSize_append]; omega)) (hflat.imp id (·.2))
    (ha.imp (fun h => BlankLast.right h) id) hlow hh hH hC (hf.add _) (fun e => (hun e).2) (by simp) (by simp) (by simp) (by simp) (by simp [headCost]) (by simp) (fun _ => rfl) k6
  refine ⟨ex', shut [] ex ++ [paragraphShape j ps] ++ ss, ?_, ?_, k9, k10⟩
  · rw [Frame.add_add] at k7
    exact ((k1.trans k3).trans k5).leads k7
  · rw [List.append_assoc, k8]; simp [Blocks.shapes, shut]

theorem runs_leaf {L : Leaf} {gap : List Str} {rest : Blocks} (hrun : RunsBlocks rest) : RunsBlocks (.leaf L gap rest) := by
  intro E S os n i j H C f fs ex after s c hE hB hsz hflat ha hlow hh hH hC hf hun hdeep _ _ hex hcnt hc _ h
  obtain ⟨hL, hgap, hquo, hrest⟩ := hB
  have e1 : Blocks.lines i (.leaf L gap rest) ++ after = L.lines i ++ (gap ++ (rest.lines i ++ after)) := by
    simp [Blocks.lines]
  rw [e1] at h
  obtain ⟨s1, k1, k2⟩ := h.unwind hE.shift (starts_leaf hL i _) ex.length ex rfl (fun e he => (hdeep e he).shuts_para)
    (by omega)
  obtain ⟨s2, k3, k4⟩ := k2.leaf hE.shift (by omega) (hf.add _) hL hgap (low_blocks hrest hquo hlow)
  rw [Frame.add_add] at k4
  obtain ⟨ex', ss, k7, k8, k9, k10⟩ := hrun (H := H) (C := C) (ex := []) hE hrest
    (rounds_part hsz (by simp only [Blocks.lines, textSize_append]; omega)) (hflat.imp id (·.2.2))
    (ha.imp (fun h => BlankLast.right h) id) hlow hh hH hC (hf.add _) hun (by simp) (by simp) (by simp) (by simp) (by simp [headCost]) (by simp) (fun _ => rfl) k4
  refine ⟨ex', shut [] ex ++ L.nodes.map (.node · []) ++ ss, ?_, ?_, k9, k10⟩
  · rw [Frame.add_add] at k7
    exact (k1.trans k3).leads k7
  · rw [List.append_assoc, k8]; simp [Blocks.shapes, shut]

theorem listed_tag (m : Tag) (i count : Nat) : Listed m.state (m.list i count) i := by
  cases m
  · exact .bullet ..
  · exact .number ..
  · exact .field ..

theorem listing_tag (m : Tag) : m.state.listing := (listed_tag m 0 0).listing

theorem ownLabels_tag (m : Tag) (i count : Nat) : ownLabels (m.list i count) = [] := by cases m <;> rfl

theorem ownLabels_mark (m : Tag) (i : Nat) : ownLabels (m.item i) = [] := by cases m <;> rfl

theorem bodyIndent_mark (m : Tag) (i : Nat) : (m.item i).bodyIndent = some (i + m.width) := by cases m <;> rfl

/-- The mark of the first item continues the list that it opens. -/
theorem continues_first (m : Tag) (j : Nat) : Succeeds j m (m.list j 0) := by
  cases m <;> simp [Succeeds, Continues, Tag.list]

/-- The mark of the next item. -/
theorem continues_next {m m' m0 : Tag} {j count : Nat} (h : Succeeds j m (m0.list j count)) (hn : m.next m') :
    Succeeds j m' (m0.list j (count + 1)) := by
  cases m0 <;> cases m <;> first | exact h.elim | skip
  all_goals cases m' <;> first | exact hn.elim | skip
  · exact ⟨h.1.trans hn.symm, h.2⟩
  · obtain ⟨h1, ⟨h2, h4⟩, h3⟩ := h
    obtain ⟨rfl, h5, h6⟩ := hn
    exact ⟨h1, ⟨h5.trans h2, by omega⟩, h3⟩
  · exact h

theorem next_of_continues {m m' m0 : Tag} {j count : Nat} (h : Succeeds j m (m0.list j count)) (h' : Continues j m' (m0.list j (count + 1))) :
    m.joins m' := by
  cases m0 <;> cases m <;> first | exact h.elim | skip
  all_goals cases m' <;> first | exact h'.elim | skip
  · exact h'.1.symm.trans h.1
  · obtain ⟨h1, ⟨h2, h3⟩, _⟩ := h
    obtain ⟨h4, h5, _⟩ := h'
    exact ⟨h4.symm.trans h1, h5.imp id fun h => ⟨h.1.trans h2.symm, by omega⟩⟩
  · trivial

/-- What continues a list that has been read follows the mark of its last item. -/
theorem next_of_last {m0 ml m' : Tag} {j : Nat} : ∀ {I : Items} {count : Nat}, I.chained → (∀ m, I.first = some m → Succeeds j m (m0.list j count)) →
    I.last = some ml → Continues j m' (m0.list j (count + I.count)) → ml.joins m'
  | .nil, _, _, _, h, _ => by cases h
  | .item m g ps gap body rest, count, hch, hf, hl, hc => by
    have h1 := hf m rfl
    cases rest with
    | nil =>
      obtain rfl : m = ml := by simpa [Items.last] using hl
      exact next_of_continues h1 hc
    | item m2 g2 ps2 gap2 body2 rest2 =>
      have e : (Items.item m2 g2 ps2 gap2 body2 rest2).last = some ml := by
        rw [← hl]
        cases h : (Items.item m2 g2 ps2 gap2 body2 rest2).last with
        | none => simp only [Items.last] at h; cases h' : rest2.last <;> simp [h'] at h
        | some x => simp only [Items.last] at h ⊢; rw [h]; rfl
      refine next_of_last (count := count + 1) hch.2 (fun m3 h3 => continues_next h1 (hch.1 m3 h3)) e ?_
      have : count + (Items.item m g ps gap body (.item m2 g2 ps2 gap2 body2 rest2)).count = count + 1 + (Items.item m2 g2 ps2 gap2 body2 rest2).count := by
        simp only [Items.count]; omega
      rw [← this]; exact hc

theorem blankLast_items {I : Items} {i : Nat} (h : BlankLast (I.lines i)) (j : Nat) : BlankLast (I.lines j) := by
  rw [blankLast_iff] at h ⊢
  rw [blank_items I j i]; exact h

/-- A list whose last item has a number is separated from what follows. -/
theorem list_numbered {items : Items} {rest : Blocks} {i : Nat} {after : List Str} (h : items.numbered → rest = .nil ∨ BlankLast (items.lines 0))
    (ha : BlankLast (Blocks.lines i (.list items rest)) ∨ Ends i after) :
    items.numbered → BlankLast (items.lines i) ∨ Ends i (rest.lines i ++ after) := by
  intro hn
  rcases h hn with rfl | h
  · exact ha.imp (fun h => BlankLast.left h) id
  · exact .inl (blankLast_items h i)

theorem runs_list {items : Items} {rest : Blocks} (hitems : RunsItems items) (hrun : RunsBlocks rest) :
    RunsBlocks (.list items rest) := by
  intro E S os n i j H C f fs ex after s c hE hB hsz hflat ha hlow hh hH hC hf hun hdeep hshut _ hex hcnt hc _ h
  obtain ⟨hne, hI, ⟨hchain, hopens⟩, hother, hnum, hquo, hrest⟩ := hB
  have hhI : items.height + 1 ≤ H ∧ rest.height ≤ H := by simp only [Blocks.height] at hh; omega
  have hcI : items.cost ≤ C ∧ rest.cost ≤ C := by simp only [Blocks.cost] at hC; omega
  have hends : BlankLast (items.lines i) ∨ Ends (i + 1) (rest.lines i ++ after) := by
    by_cases hr : rest = .nil
    · subst hr
      exact ha.imp (fun h => BlankLast.left h) (fun h => h.mono (by omega))
    · exact .inr (ends_blocks (by omega) hrest hr hquo)
  have hends2 := list_numbered hnum ha
  have e1 : Blocks.lines i (.list items rest) ++ after = items.lines i ++ (rest.lines i ++ after) := by
    simp [Blocks.lines]
  rw [e1] at h
  obtain ⟨m0, hm0⟩ : ∃ m, items.first = some m := by
    cases items with
    | nil => exact absurd rfl hne
    | item m g ps gap body rest' => exact ⟨m, rfl⟩
  have hopen : ∃ s1, Goes E s s1 ∧
      At E S os s1 (tagFrame m0 j 0 [] :: f.add (shut [] ex) :: fs) (items.lines i ++ (rest.lines i ++ after)) (c + ex.length + 1) := by
    cases items with
    | nil => exact absurd rfl hne
    | item m g ps gap body rest' =>
      obtain rfl : m = m0 := by simpa [Items.first] using hm0
      have hstart := starts_items (E := E) hI hends2
      have e2 : Items.lines i (.item m g ps gap body rest') ++ (rest.lines i ++ after) =
        m.lines i g ++ (gap ++ (body.lines (i + m.width) ++ (rest'.lines i ++ (rest.lines i ++ after)))) := by
        simp [Items.lines]
      rw [e2] at h ⊢
      obtain ⟨s1, k1, k2⟩ := h.unwind hE.shift hstart ex.length ex rfl (hshut m rfl) (by omega)
      generalize hlines : m.lines i g ++ (gap ++ (body.lines (i + m.width) ++ (rest'.lines i ++ (rest.lines i ++ after)))) = lines at hstart k2 ⊢
      cases hstart with
      | tag hm hl hcl =>
        obtain ⟨s2, k3, k4⟩ := k2.open_tag hE.shift (by omega) (hf.add _) hm (hopens _ rfl) hl hcl
        exact ⟨s2, k1.trans k3, k4.here, k4.spine, k4.stack, by have := k4.count; omega, k4.secs⟩
  obtain ⟨s1, k1, k2⟩ := hopen
  have hfirst : ∀ m, items.first = some m → Succeeds j m (m0.list j 0) := by
    intro m hm
    rw [hm0] at hm
    obtain rfl := Option.some.inj hm
    exact continues_first m0 j
  obtain ⟨ex1, ss1, ⟨s2, k7, k8⟩, k4, k5, k6, kc⟩ := hitems (H := H - 1) (C := C) (ss0 := []) (ex := []) hE hI hchain hfirst
    (rounds_part hsz (by simp only [Blocks.lines, textSize_append]; omega)) (hflat.imp id (·.1)) hends hends2 (low_blocks hrest hquo hlow) (by omega)
    (by omega) hcI.1 (by simp) (by simp) (by simp [headCost]) (by simp only [List.length_nil]; omega) (fun e => absurd e hne) k2
  rw [Nat.zero_add] at k8
  have hdeep2 : ∀ e ∈ ex1 ++ [tagFrame m0 j items.count ss1], Deep j e := by
    intro e he
    rcases List.mem_append.mp he with he | he
    · exact (k6 e he).1
    · obtain rfl := List.mem_singleton.mp he
      exact .inr ⟨j, listed_tag .., Nat.le_refl _⟩
  have hshut2 : ∀ m, rest.first = some m → ∀ e ∈ ex1 ++ [tagFrame m0 j items.count ss1], Shuts j (some m) e := by
    intro m hs e he
    rcases List.mem_append.mp he with he | he
    · exact (k6 e he).2 _
    · obtain rfl := List.mem_singleton.mp he
      refine .inr ⟨j, listed_tag .., fun m' hm' hcont => ?_⟩
      obtain rfl := Option.some.inj hm'
      obtain ⟨ml, hml⟩ : ∃ m, items.last = some m := by
        cases items with
        | nil => exact absurd rfl hne
        | item m g ps gap body rest' => simp only [Items.last]; cases rest'.last <;> simp
      exact hother ml m hml hs (next_of_last hchain hfirst hml (by rw [Nat.zero_add]; exact hcont))
  have e3 : ex1 ++ tagFrame m0 j items.count ss1 :: f.add (shut [] ex) :: fs = (ex1 ++ [tagFrame m0 j items.count ss1]) ++ f.add (shut [] ex) :: fs := by
    simp
  rw [e3] at k8
  obtain ⟨ex', ss, m1, m2, m3, m4⟩ := hrun (H := H) (C := C) hE hrest
    (rounds_part hsz (by simp only [Blocks.lines, textSize_append]; omega)) (hflat.imp id (·.2))
    (ha.imp (fun h => BlankLast.right h) id) hlow hhI.2 hH hcI.2 (hf.add _) hun hdeep2 hshut2
    (fun e => absurd e hquo) (by simp only [List.length_append, List.length_cons, List.length_nil]; omega)
    (by rw [headCost_append, headCost_list (listing_tag m0)]; exact kc) (by simp only [List.length_append, List.length_cons, List.length_nil]; omega) (fun _ => rfl) k8
  refine ⟨ex', shut [] ex ++ ss, ?_, ?_, m3, m4⟩
  · rw [Frame.add_add] at m1
    exact (k1.trans k7).leads m1
  · rw [List.append_assoc, m2, shut_append, k4]
    simp [Blocks.shapes, shut, ownLabels_tag, hm0, listShapes]

/-- The blocks of an item. -/
theorem item_body {E : Env} {S : SectionData} {os : List Frame} {n i j H C count : Nat} {fs : List Frame} {s : LoopState} {c : Nat}
    {m m0 : Tag} {g : List Str} {ps : List Piece} {gap rest' : List Str} {body : Blocks} {ss0 : List Shape} (hrun : RunsBlocks body) (hE : Fits E n i j)
    (hm : m.Ok g) (hp : Para g ps) (hcont : Succeeds j m (m0.list j count)) (hgap : ∀ l ∈ gap, isBlank l = true) (hnil : gap = [] → body = .nil)
    (hnum : m.numbered → body.Tidy) (hflat : E.baseIndent = 0 ∨ body.Tidy)
    (hbody : body.Ok) (hsz : roundsBound (textSize (m.lines i g ++ gap ++ body.lines (i + m.width))) ≤ n)
    (hend : BlankLast (m.lines i g ++ gap ++ body.lines (i + m.width)) ∨ Ends (i + 1) rest') (hlow : Low (i + 1) rest') (hh : body.height ≤ H) (hH : H ≤ 8)
    (hC : body.cost ≤ C) (hc : c ≤ 9) (hstart : Starts E i (some m) (m.lines i g ++ (gap ++ (body.lines (i + m.width) ++ rest'))))
    (h : At E S os s (tagFrame m0 j count ss0 :: fs) (m.lines i g ++ (gap ++ (body.lines (i + m.width) ++ rest'))) c) :
    ∃ ex' ss, Leads E S os s (ex' ++ markFrame m j ss :: tagFrame m0 j (count + 1) ss0 :: fs) rest' 0 ∧
      ss ++ shut [] ex' = paragraphShape (j + m.width) ps :: body.shapes (j + m.width) ∧
      ex'.length ≤ H ∧ (∀ e ∈ ex', Deep (j + m.width) e) ∧ headCost ex' ≤ C := by
  have hw : 0 < m.width := by
    cases m with
    | bullet b => simp [Tag.width]
    | number d n => simp [Tag.width]
    | field name w => exact hm.2.2.2.1
  obtain ⟨r, rfl⟩ : ∃ r, n = r + 1 := ⟨n - 1, by have := lt_roundsBound (textSize (m.lines i g ++ gap ++ body.lines (i + m.width))); omega⟩
  have hends : Ends (i + m.width) (gap ++ (body.lines (i + m.width) ++ rest')) := ends_gap hgap fun e => by
    rw [hnil e] at hend ⊢
    subst e
    rcases hend with h | h
    · exact absurd (by simpa [Blocks.lines] using h) (tag_not_blankLast (i := i) hm hp.notEmpty hp.lines)
    · exact h.mono (by omega)
  have hends1 : BlankLast (body.lines (i + m.width)) ∨ Ends (i + m.width) rest' := hend.imp (fun h => BlankLast.right h) (fun h => h.mono (by omega))
  -- bullets and fields
  have hflow : Leads E S os s (markFrame m j [paragraphShape (j + m.width) ps] :: tagFrame m0 j (count + 1) ss0 :: fs)
        (gap ++ (body.lines (i + m.width) ++ rest')) 0 →
      ∃ ex' ss, Leads E S os s (ex' ++ markFrame m j ss :: tagFrame m0 j (count + 1) ss0 :: fs) rest' 0 ∧
        ss ++ shut [] ex' = paragraphShape (j + m.width) ps :: body.shapes (j + m.width) ∧
        ex'.length ≤ H ∧ (∀ e ∈ ex', Deep (j + m.width) e) ∧ headCost ex' ≤ C := by
    rintro ⟨s1, k1, k2⟩
    obtain ⟨s2, k3, k4⟩ := k2.blanks (.inr (.inr (.inl rfl))) hgap
    obtain ⟨ex1, ss1, k5, k6, k7, k8, k9⟩ := hrun (H := H) (C := C) (ex := []) (hE.more m.width) hbody
      (rounds_part hsz (by simp only [textSize_append]; omega)) hflat hends1 (hlow.mono (by omega)) hh hH hC
      (markFrame_body ..) (fun e => by cases e) (by simp) (by simp) (by simp) (by simp) (by simp [headCost]) (by simp) (fun _ => rfl) k4
    exact ⟨ex1, paragraphShape (j + m.width) ps :: ss1, (k1.trans k3).leads k5, by simpa [shut] using k6, k7, k8, k9⟩
  cases m with
  | bullet b =>
    cases m0 <;> first | exact hcont.elim | skip
    rename_i b'
    obtain rfl : b' = b := hcont.1
    refine hflow ?_
    have hlen : g.length < r + 1 := by
      have h1 : ((Tag.bullet b').lines i g).length = g.length := by cases g <;> simp [Tag.lines]
      have h2 := length_le_textSize ((Tag.bullet b').lines i g)
      have h3 := lt_roundsBound (textSize ((Tag.bullet b').lines i g ++ gap ++ body.lines (i + (Tag.bullet b').width)))
      have h4 : textSize ((Tag.bullet b').lines i g) ≤ textSize ((Tag.bullet b').lines i g ++ gap ++ body.lines (i + (Tag.bullet b').width)) := by
        simp only [textSize_append]; omega
      omega
    rw [tag_bullet] at h
    exact AtL.item hE.shift hE.nested hlen h hc hm hp hends
  | field name w =>
    cases m0 <;> first | exact hcont.elim | skip
    rename_i name0 w0
    refine hflow ?_
    match g, hp.notEmpty with
    | l :: ls, _ =>
      have h' : At E S os s (tagFrame (.field name0 w0) j (count + 1) ss0 :: fs) (indentLine i ((Tag.field name w).text ++ l) :: ls.map (indentLine (i + w)) ++
          (gap ++ (body.lines (i + w) ++ rest'))) c := h
      refine AtL.field (r := r) (l := l) (ls := ls) hE.shift hE.nested ?_ rfl rfl h' hc hm hp hends ?_
      · refine Nat.le_trans (roundsBound_mono ?_) hsz
        have : textSize (l :: ls) ≤ textSize ((Tag.field name w).lines i (l :: ls)) := by
          simp only [Tag.lines, textSize_cons]
          have h1 : l.length ≤ (indentLine i ((Tag.field name w).text ++ l)).length := by simp [indentLine]; omega
          have h2 : textSize ls ≤ textSize (ls.map (indentLine (i + (Tag.field name w).width))) := by
            have := textSize_map_le (f := (·.drop (i + (Tag.field name w).width))) (fun l => by simp) (ls.map (indentLine (i + (Tag.field name w).width)))
            rwa [indents_drop] at this
          omega
        simp only [textSize_append]; omega
      · intro x hx
        cases gap with
        | cons y gap =>
          obtain rfl : y = x := by simpa using hx
          exact .inl (hgap y (by simp))
        | nil =>
          rw [hnil rfl] at hx
          exact .inr (hlow x (by simpa [Blocks.lines] using hx)).2
  | number d k =>
    cases m0 <;> first | exact hcont.elim | skip
    rename_i d0 start
    obtain ⟨rfl, ⟨hkind, hk⟩, _⟩ := hcont
    match g, hp.notEmpty with
    | l :: ls, _ =>
      generalize hmm : Tag.number d0 k = m at *
      have htidy : body.Tidy := hnum (by rw [← hmm]; trivial)
      have hdrop : (body.lines (i + m.width)).map (·.drop (i + m.width)) = body.lines 0 := map_drop_blocks hbody htidy (i + m.width) 0
      have hsrc : (ls.map (indentLine (i + m.width)) ++ gap ++ body.lines (i + m.width)).map (·.drop (i + m.width)) =
          ls ++ gap.map (·.drop (i + m.width)) ++ body.lines 0 := by
        rw [List.map_append, List.map_append, hdrop]
        congr 2
        conv => rhs; rw [← List.map_id ls]
        rw [List.map_map]
        exact List.map_congr_left fun x _ => drop_indentLine _ x
      have hsize : textSize (l :: (ls.map (indentLine (i + m.width)) ++ gap ++ body.lines (i + m.width)).map (·.drop (i + m.width))) <
          textSize (m.lines i (l :: ls) ++ gap ++ body.lines (i + m.width)) := by
        have h1 : textSize ((ls.map (indentLine (i + m.width)) ++ gap ++ body.lines (i + m.width)).map (·.drop (i + m.width))) ≤
          textSize (ls.map (indentLine (i + m.width)) ++ gap ++ body.lines (i + m.width)) := textSize_map_le (fun l => by simp) _
        have h2 : l.length < (indentLine i (m.text ++ l)).length := by
          obtain ⟨x, t, e, _⟩ := tag_cons hm
          simp [indentLine, e]; omega
        simp only [Tag.lines, List.cons_append, textSize_cons, textSize_append] at h1 ⊢
        omega
      have hsz0 : roundsBound (textSize (body.lines 0)) ≤ r := by
        have h1 : textSize (body.lines 0) ≤ textSize (l :: (ls.map (indentLine (i + m.width)) ++ gap ++ body.lines (i + m.width)).map (·.drop (i + m.width))) := by
          rw [hsrc, textSize_cons, textSize_append]; omega
        have h3 := roundsBound_lt (Nat.lt_of_le_of_lt h1 hsize)
        omega
      have hclear : Follows m i (ls.map (indentLine (i + m.width)) ++ gap ++ body.lines (i + m.width) ++ rest') := by
        simp only [Tag.lines, List.cons_append] at hstart
        generalize hx : indentLine i (m.text ++ l) = x at hstart
        generalize hy : ls.map (indentLine (i + m.width)) ++ (gap ++ (body.lines (i + m.width) ++ rest')) = y at hstart
        have : ls.map (indentLine (i + m.width)) ++ gap ++ body.lines (i + m.width) ++ rest' = y := by rw [← hy]; simp
        rw [this]
        cases hstart with
        | tag _ _ hcl => exact hcl (by rw [← hmm]; trivial)
      have key : ∀ s1 : LoopState, At ⟨l :: (ls.map (indentLine (i + m.width)) ++ gap ++ body.lines (i + m.width)).map (·.drop (i + m.width)), j + m.width, parserOf r⟩ S
          (tagFrame (.number d0 start) j (count + 1) ss0 :: (fs ++ os)) s1 [markFrame m j []]
          (l :: (ls.map (indentLine (i + m.width)) ++ gap ++ body.lines (i + m.width)).map (·.drop (i + m.width))) 0 →
          ∃ ex' ss, Leads ⟨l :: (ls.map (indentLine (i + m.width)) ++ gap ++ body.lines (i + m.width)).map (·.drop (i + m.width)), j + m.width, parserOf r⟩ S
            (tagFrame (.number d0 start) j (count + 1) ss0 :: (fs ++ os)) s1 (ex' ++ [markFrame m j ss]) [] 0 ∧
            ss ++ shut [] ex' = paragraphShape (j + m.width) ps :: body.shapes (j + m.width) ∧
            ex'.length ≤ H ∧ (∀ e ∈ ex', Deep (j + m.width) e) ∧ headCost ex' ≤ C := by
        intro s1 a1
        generalize hE' : (⟨l :: (ls.map (indentLine (i + m.width)) ++ gap ++ body.lines (i + m.width)).map (·.drop (i + m.width)), j + m.width, parserOf r⟩ : Env) = E' at a1 ⊢
        have hb' : E'.baseIndent = j + m.width := by rw [← hE']
        have hfit : Fits E' r 0 (j + m.width) := ⟨by omega, by rw [← hE']⟩
        have e4 : l :: (ls.map (indentLine (i + m.width)) ++ gap ++ body.lines (i + m.width)).map (·.drop (i + m.width)) =
            (l :: ls).map (indentLine 0) ++ (gap.map (·.drop (i + m.width)) ++ (body.lines 0 ++ [])) := by
          rw [hsrc]
          have : (l :: ls).map (indentLine 0) = l :: ls := by
            conv => rhs; rw [← List.map_id (l :: ls)]
            exact List.map_congr_left fun x _ => rfl
          rw [this]; simp
        rw [e4] at a1
        have hgap' : ∀ x ∈ gap.map (·.drop (i + m.width)), isBlank x = true := by
          intro x hx
          obtain ⟨z, hz, rfl⟩ := List.mem_map.mp hx
          exact blank_drop (hgap z hz) _
        obtain ⟨s2, k1, k2⟩ := AtL.paragraph hfit.shift a1 (by omega) (markFrame_body E' m j []) hp (fun e => by cases e) (ends_gap hgap' fun e => by
          have : gap = [] := by simpa using e
          rw [hnil this]
          intro x hx; cases hx)
        obtain ⟨s3, k3, k4⟩ := k2.blanks (.inr (.inr (.inl rfl))) hgap'
        obtain ⟨ex1, ss1, k5, k6, k7, k8, k9⟩ := hrun (H := H) (C := C) (ex := []) hfit hbody hsz0 (.inr htidy) (.inr fun x hx => by cases hx) (fun x hx => by cases hx)
          hh hH hC (markFrame_body E' m j [paragraphShape (j + m.width) ps]) (fun e => by cases e) (by simp) (by simp) (by simp) (by simp) (by simp [headCost]) (by simp) (fun _ => rfl) k4
        exact ⟨ex1, paragraphShape (j + m.width) ps :: ss1, (k1.trans k3).leads k5, by simpa [shut] using k6, k7, k8, k9⟩
      have hin : ∀ x ∈ ls.map (indentLine (i + m.width)) ++ gap ++ body.lines (i + m.width), isBlank x = true ∨ i + m.width ≤ indentOf x := by
        intro x hx
        rcases List.mem_append.mp hx with hx | hx
        · rcases List.mem_append.mp hx with hx | hx
          · obtain ⟨y, hy, rfl⟩ := List.mem_map.mp hx
            exact .inr (Nat.le_of_eq (front_text (hp.lines.2 y hy) _).indent.symm)
          · exact .inl (hgap x hx)
        · exact (within_blocks hbody (i + m.width) x hx).indent
      subst hmm
      obtain ⟨frames, ⟨ex', ss, rfl, k1, k2, k3, k4⟩, k5⟩ := AtL.number (Q := fun frames => ∃ ex' ss, frames = ex' ++ [markFrame (.number d0 k) j ss] ∧
          ss ++ shut [] ex' = paragraphShape (j + (Tag.number d0 k).width) ps :: body.shapes (j + (Tag.number d0 k).width) ∧
            ex'.length ≤ H ∧ (∀ e ∈ ex', Deep (j + (Tag.number d0 k).width) e) ∧ headCost ex' ≤ C) (rest := rest') hE.shift hE.nested (by simpa [Tag.lines] using h) hc hkind hk hm
        hp.lines.1.toTextLine hclear hin (hlow.mono (by omega)) (Nat.le_trans (roundsBound_mono (Nat.le_of_lt hsize)) hsz) (fun s1 a1 => by
          obtain ⟨ex', ss, b1, b2⟩ := key s1 a1
          exact ⟨_, ⟨ex', ss, rfl, b2⟩, b1⟩)
      refine ⟨ex', ss, ?_, k1, k2, k3, k4⟩
      have e6 : ex' ++ [markFrame (.number d0 k) j ss] ++ tagFrame (.number d0 start) j (count + 1) ss0 :: fs =
        ex' ++ markFrame (.number d0 k) j ss :: tagFrame (.number d0 start) j (count + 1) ss0 :: fs := by simp
      rw [e6] at k5
      exact k5

theorem runs_item {m : Tag} {g : List Str} {ps : List Piece} {gap : List Str} {body : Blocks} {rest : Items} (hbodyRun : RunsBlocks body)
    (hrun : RunsItems rest) : RunsItems (.item m g ps gap body rest) := by
  intro E S os m0 n i j H C count ss0 fs ex after s c hE hI hchain hcont hsz hflat ha hnumb hlow hh hH hC hdeep hex hcnt hc _ h
  obtain ⟨hm, hp, hgap, hnil, hnum, hbody, hrest⟩ := id hI
  have hhI : body.height + 1 ≤ H ∧ rest.height ≤ H := by simp only [Items.height] at hh; omega
  have hcI : body.cost + 1 ≤ C ∧ rest.cost ≤ C := by simp only [Items.cost] at hC; omega
  have hends1 : BlankLast (m.lines i g ++ gap ++ body.lines (i + m.width)) ∨ Ends (i + 1) (rest.lines i ++ after) := by
    by_cases hr : rest = .nil
    · subst hr
      exact ha.imp (fun h => BlankLast.left h) id
    · exact .inr (ends_items (by omega) hrest hr)
  have hstart := starts_items (E := E) (after := after) hI hnumb
  have e1 : Items.lines i (.item m g ps gap body rest) ++ after =
      m.lines i g ++ (gap ++ (body.lines (i + m.width) ++ (rest.lines i ++ after))) := by
    simp [Items.lines]
  rw [e1] at h
  obtain ⟨s1, k1, k2⟩ := h.unwind hE.shift hstart ex.length ex rfl (fun e he => (hdeep e he).2 _)
    (by omega)
  obtain ⟨ex1, ss1, ⟨s4, k11, k12⟩, k8, k9, k10, kc⟩ := item_body (H := H - 1) (C := C - 1) (ss0 := ss0 ++ shut [] ex) hbodyRun hE hm hp (hcont m rfl) hgap hnil
    (fun h => (hnum h).2) (hflat.imp id (·.2.1)) hbody (rounds_part hsz (by simp only [Items.lines, textSize_append]; omega)) hends1
    (low_items hrest hlow) (by omega) (by omega) (by omega) (by omega) hstart k2
  have hw : 0 < m.width := by
    cases m with
    | bullet b => simp [Tag.width]
    | number d n => simp [Tag.width]
    | field name w => exact hm.2.2.2.1
  have hdeep2 : ∀ e ∈ ex1 ++ [markFrame m j ss1], Inner j e := by
    intro e he
    rcases List.mem_append.mp he with he | he
    · exact (k10 e he).inner (by omega)
    · obtain rfl := List.mem_singleton.mp he
      have : (markFrame m j ss1).st.deep := .inl (.inl rfl)
      exact ⟨.inl ⟨this, j + m.width, bodyIndent_mark m j, by omega⟩, fun b => .inl ⟨this, j + m.width, bodyIndent_mark m j, by omega⟩⟩
  have e3 : ex1 ++ markFrame m j ss1 :: tagFrame m0 j (count + 1) (ss0 ++ shut [] ex) :: fs =
      (ex1 ++ [markFrame m j ss1]) ++ tagFrame m0 j (count + 1) (ss0 ++ shut [] ex) :: fs := by
    simp
  rw [e3] at k12
  obtain ⟨ex', ss, m1, m2, m3, m4⟩ := hrun (H := H) (C := C) (c := 0) hE hrest hchain.2 (fun m' hm' => continues_next (hcont m rfl) (hchain.1 m' hm'))
    (rounds_part hsz (by simp only [Items.lines, textSize_append]; omega)) (hflat.imp id (·.2.2))
    (ha.imp (fun h => BlankLast.right h) id) (fun h => (hnumb (item_numbered h)).imp (fun h => BlankLast.right h) id) hlow hhI.2 hH hcI.2 hdeep2
    (by simp only [List.length_append, List.length_cons, List.length_nil]; omega)
    (by rw [headCost_append]; have := headCost_one (markFrame m j ss1); omega)
    (by simp only [List.length_append, List.length_cons, List.length_nil]; omega) (fun _ => rfl) k12
  refine ⟨ex', ss, ((k1.trans k11)).leads ?_, ?_, m3, m4⟩
  · have e : count + 1 + rest.count = count + (Items.item m g ps gap body rest).count := by simp only [Items.count]; omega
    rw [← e]; exact m1
  · rw [m2, shut_append]
    simp only [k8, Frame.labels, ownLabels_mark, List.append_nil]
    simp [Items.shapes]

theorem ownLabels_box (X : Box) (i : Nat) : ownLabels (X.node i) = [] := by cases X <;> rfl

theorem bodyIndent_box (X : Box) (i : Nat) : (X.node i).bodyIndent = some (i + 3) := by cases X <;> rfl

theorem blocky_box (X : Box) : (boxState X).blocky := by
  cases X <;> simp [State.blocky, boxState]

theorem boxFrame_add (X : Box) (i : Nat) (ss : List Shape) : (boxFrame X i []).add ss = boxFrame X i ss := by simp [Frame.add]

/-- The open node of a directive with labels and some blocks. -/
abbrev anchorFrame (labels : List Str) (X : Box) (i : Nat) (ss : List Shape) : Frame := ⟨boxState X, X.node i, X.kids.map (.node · []) ++ ss, labels⟩

theorem anchorFrame_add (labels : List Str) (X : Box) (i : Nat) (ss : List Shape) : (anchorFrame labels X i []).add ss = anchorFrame labels X i ss := by
  simp [Frame.add]

theorem boxFrame_unquoted (X : Box) {i : Nat} {ss : List Shape} {P : Prop} : (boxFrame X i ss).st = .BlockQuote → P := by
  cases X <;> intro e <;> cases e

/-- The blocks in a directive with targets before it. -/
theorem anchor_body {labels : List Str} {E : Env} {S : SectionData} {os : List Frame} {n i H C : Nat} {f : Frame} {fs : List Frame} {s : LoopState}
    {X : Box} {gap rest' : List Str} {body : Blocks} (hrun : RunsBlocks body) (h0 : E.baseIndent = 0) (hN : E.nested = parserOf n)
    (hX : X.Ok) (hap : X.apart = false) (hg : gap ≠ []) (hb : ∀ l ∈ gap, isBlank l = true) (hne : body = .nil → X.dir.opts ≠ [])
    (hquo : ¬ body.quoted) (hbody : body.Ok) (hsz : roundsBound (textSize (X.dir.lines i ++ gap ++ body.lines (i + 3))) ≤ n)
    (hend : BlankLast (body.lines (i + 3)) ∨ Ends (i + 3) rest') (hlow : Low (i + 1) rest') (hh : body.height ≤ H) (hH : H ≤ 8)
    (hC : body.cost ≤ C) (hf : f.Body E i) {c : Nat} (hc : c ≤ 9)
    (h : AtL labels E S os s (f :: fs) (X.dir.lines i ++ (gap ++ (body.lines (i + 3) ++ rest'))) c) :
    ∃ ex' ss, Leads E S os s (ex' ++ anchorFrame labels X i ss :: f :: fs) rest' 0 ∧ ss ++ shut [] ex' = body.shapes (i + 3) ∧
      ex'.length ≤ H ∧ (∀ e ∈ ex', Deep (i + 3) e) ∧ headCost ex' ≤ C := by
  have hfill : Fills i X (body.lines (i + 3) ++ rest') := by
    by_cases hn : body = .nil
    · exact .inr (hne hn)
    · obtain ⟨l, ls, e, hl⟩ := blocks_front hbody hn hquo (i + 3)
      exact .inl ⟨l, ls ++ rest', by rw [e]; rfl, hl.not_blank, hl.indent⟩
  obtain ⟨s1, k1, k2⟩ := AtL.box_targets h0 h hc hf hX hap hg hb hfill
  have hB := boxFrame_body E X i []
  obtain ⟨ex', ss, k3, k4, k5, k6, k7⟩ := hrun (H := H) (C := C) (ex := []) (j := i + 3) (f := anchorFrame labels X i []) ⟨by omega, hN⟩ hbody
    (rounds_part hsz (by simp only [textSize_append]; omega)) (.inl h0) hend (hlow.mono (by omega)) hh hH hC
    ⟨hB.table, hB.readable, hB.indent, hB.kids⟩ (boxFrame_unquoted (i := i) (ss := []) X) (by simp) (by simp) (by simp) (by simp) (by simp [headCost]) (by simp) (fun _ => rfl) k2
  rw [anchorFrame_add] at k3
  exact ⟨ex', ss, k1.leads k3, by simpa [shut] using k4, k5, k6, k7⟩

/-- The blocks in a directive. -/
theorem box_body {E : Env} {S : SectionData} {os : List Frame} {n i H C : Nat} {f : Frame} {fs : List Frame} {s : LoopState}
    {X : Box} {gap rest' : List Str} {body : Blocks} (hrun : RunsBlocks body) (h0 : E.baseIndent = 0) (hN : E.nested = parserOf n)
    (hX : X.Ok) (hg : gap ≠ []) (hb : ∀ l ∈ gap, isBlank l = true) (hne : body = .nil → X.apart = false ∧ X.dir.opts ≠ []) (htidy : X.apart = true → body.Tidy)
    (hquo : ¬ body.quoted) (hbody : body.Ok) (hsz : roundsBound (textSize (X.dir.lines i ++ gap ++ body.lines (i + 3))) ≤ n)
    (hend : BlankLast (body.lines (i + 3)) ∨ Ends (i + 3) rest') (hlow : Low (i + 1) rest') (hh : body.height ≤ H) (hH : H ≤ 8)
    (hC : body.cost ≤ C) (hf : f.Body E i) {c : Nat} (hc : c ≤ 9)
    (h : At E S os s (f :: fs) (X.dir.lines i ++ (gap ++ (body.lines (i + 3) ++ rest'))) c) :
    ∃ ex' ss, Leads E S os s (ex' ++ boxFrame X i ss :: f :: fs) rest' 0 ∧ ss ++ shut [] ex' = body.shapes (i + 3) ∧
      ex'.length ≤ H ∧ (∀ e ∈ ex', Deep (i + 3) e) ∧ headCost ex' ≤ C := by
  cases hap : X.apart with
  | false =>
    have hfill : Fills i X (body.lines (i + 3) ++ rest') := by
      by_cases hn : body = .nil
      · exact .inr (hne hn).2
      · obtain ⟨l, ls, e, hl⟩ := blocks_front hbody hn hquo (i + 3)
        exact .inl ⟨l, ls ++ rest', by rw [e]; rfl, hl.not_blank, hl.indent⟩
    obtain ⟨s1, k1, k2⟩ := AtL.box h0 h hc hf hX hap hg hb hfill
    obtain ⟨ex', ss, k3, k4, k5, k6, k7⟩ := hrun (H := H) (C := C) (ex := []) (j := i + 3) ⟨by omega, hN⟩ hbody
      (rounds_part hsz (by simp only [textSize_append]; omega)) (.inl h0) hend (hlow.mono (by omega)) hh hH hC
      (boxFrame_body E X i []) (boxFrame_unquoted X) (by simp) (by simp) (by simp) (by simp) (by simp [headCost]) (by simp) (fun _ => rfl) k2
    rw [boxFrame_add] at k3
    exact ⟨ex', ss, k1.leads k3, by simpa [shut] using k4, k5, k6, k7⟩
  | true =>
    have hne : body ≠ .nil := fun hn => by rw [(hne hn).1] at hap; cases hap
    obtain ⟨l, ls, e, hl⟩ := blocks_front hbody hne hquo (i + 3)
    obtain ⟨m, rfl⟩ : ∃ m, n = m + 1 := ⟨n - 1, by have := lt_roundsBound (textSize (X.dir.lines i ++ gap ++ body.lines (i + 3))); omega⟩
    have hdrop : (body.lines (i + 3)).map (·.drop (i + 3)) = body.lines 0 := map_drop_blocks hbody (htidy hap) (i + 3) 0
    have hsz0 : roundsBound (textSize (body.lines 0)) ≤ m := by
      have h1 : textSize (body.lines 0) ≤ textSize (body.lines (i + 3)) := by
        rw [← hdrop]; exact textSize_map_le (fun l => by simp) _
      have h2 : 0 < textSize (X.dir.lines i) := by
        simp only [Dir.lines, textSize_cons]; omega
      have h3 := roundsBound_lt (a := textSize (body.lines 0)) (b := textSize (X.dir.lines i ++ gap ++ body.lines (i + 3)))
        (by simp only [textSize_append]; omega)
      omega
    obtain ⟨frames, ⟨ex', ss, rfl, k4, k5, k6, k7⟩, k8⟩ := AtL.apart (Q := fun frames => ∃ ex' ss, frames = ex' ++ [boxFrame X i ss] ∧
        ss ++ shut [] ex' = body.shapes (i + 3) ∧ ex'.length ≤ H ∧ (∀ e ∈ ex', Deep (i + 3) e) ∧ headCost ex' ≤ C) (m := m) h0 hN h hc hf hX hap
      hg hb ⟨l, ls, e, hl.not_blank, hl.indent⟩ (fun l hl => (within_blocks hbody (i + 3) l hl).indent) hlow
      (rounds_part hsz (by simp only [textSize_append]; omega)) (by
        intro g d line level hg' hsp hnotes
        rw [hdrop]
        have hne' : g ++ body.lines 0 ≠ [] := by
          obtain ⟨l, ls, e, _⟩ := blocks_front hbody hne hquo 0
          rw [e]; simp
        have hinit := AtL.init (E := ⟨g ++ body.lines 0, i + 3, parserOf m⟩) (f := boxFrame X i []) (os := f :: fs ++ os) hsp hnotes hne' line level
        obtain ⟨s1, k1, k2⟩ := AtL.blanks (boxFrame_body ⟨g ++ body.lines 0, i + 3, parserOf m⟩ X i []).readable hg' hinit
        have k2 : At ⟨g ++ body.lines 0, i + 3, parserOf m⟩ S (f :: fs ++ os) s1 ([] ++ [boxFrame X i []]) (body.lines 0 ++ []) 0 := by
          rw [List.append_nil]; exact k2
        obtain ⟨ex', ss, k3, k4, k5, k6, k7⟩ := hrun (H := H) (C := C) (ex := []) (i := 0) (j := i + 3) (fs := []) (after := []) ⟨by simp, rfl⟩ hbody
          hsz0 (.inr (htidy hap)) (.inr fun x hx => by cases hx) (fun x hx => by cases hx) hh hH hC
          (boxFrame_body ⟨g ++ body.lines 0, i + 3, parserOf m⟩ X i []) (boxFrame_unquoted X) (by simp) (by simp) (by simp) (by simp) (by simp [headCost]) (by simp) (fun _ => rfl) k2
        rw [boxFrame_add] at k3
        exact ⟨_, ⟨ex', ss, rfl, by simpa [shut] using k4, k5, k6, k7⟩, k1.leads k3⟩)
    refine ⟨ex', ss, ?_, k4, k5, k6, k7⟩
    have e3 : ex' ++ [boxFrame X i ss] ++ f :: fs = ex' ++ boxFrame X i ss :: f :: fs := by simp
    rw [e3] at k8
    exact k8

theorem runs_box {X : Box} {gap : List Str} {body rest : Blocks} (hbodyRun : RunsBlocks body) (hrun : RunsBlocks rest) :
    RunsBlocks (.box X gap body rest) := by
  intro E S os n i j H C f fs ex after s c hE hB hsz hflat ha hlow hh hH hC hf hun hdeep _ _ hex hcnt hc _ h
  obtain ⟨hX, hgne, hgap, hne, htidy, hquo1, hbody, hquo, hrest⟩ := hB
  have h0 : E.baseIndent = 0 := hflat.elim id (fun h => h.elim)
  obtain rfl : i = j := by have := hE.shift; omega
  have hhI : body.height + 1 ≤ H ∧ rest.height ≤ H := by simp only [Blocks.height] at hh; omega
  have hcI : body.cost + 1 ≤ C ∧ rest.cost ≤ C := by simp only [Blocks.cost] at hC; omega
  have e1 : Blocks.lines i (.box X gap body rest) ++ after = X.dir.lines i ++ (gap ++ (body.lines (i + 3) ++ (rest.lines i ++ after))) := by
    simp [Blocks.lines]
  rw [e1] at h
  have hends : BlankLast (body.lines (i + 3)) ∨ Ends (i + 3) (rest.lines i ++ after) := by
    by_cases hr : rest = .nil
    · subst hr
      refine ha.imp (fun h => ?_) (fun h => h.mono (by omega))
      rw [Blocks.lines, Blocks.lines, List.append_nil] at h
      exact BlankLast.right h
    · exact .inr (ends_blocks (by omega) hrest hr hquo)
  obtain ⟨s1, k1, k2⟩ := h.unwind hE.shift (starts_dir (box_dir hX) i _) ex.length ex rfl (fun e he => (hdeep e he).shuts_para)
    (by omega)
  obtain ⟨ex1, ss1, ⟨s2, k3, k4⟩, k5, k6, k7, k8⟩ := box_body (H := H - 1) (C := C - 1) hbodyRun h0 hE.nested hX hgne hgap hne htidy hquo1 hbody
    (rounds_part hsz (by simp only [Blocks.lines, textSize_append]; omega)) hends (low_blocks hrest hquo hlow) (by omega) (by omega) (by omega)
    (hf.add _) (by omega) k2
  have e3 : ex1 ++ boxFrame X i ss1 :: f.add (shut [] ex) :: fs = (ex1 ++ [boxFrame X i ss1]) ++ f.add (shut [] ex) :: fs := by
    simp
  rw [e3] at k4
  have hdeep2 : ∀ e ∈ ex1 ++ [boxFrame X i ss1], Deep (i + 1) e := by
    intro e he
    rcases List.mem_append.mp he with he | he
    · exact (k7 e he).mono (by omega)
    · obtain rfl := List.mem_singleton.mp he
      exact .inl ⟨.inl (blocky_box X), i + 3, bodyIndent_box X i, by omega⟩
  obtain ⟨ex', ss, m1, m2, m3, m4⟩ := hrun (H := H) (C := C) hE hrest
    (rounds_part hsz (by simp only [Blocks.lines, textSize_append]; omega)) (.inl h0)
    (ha.imp (fun h => BlankLast.right h) id) hlow hhI.2 hH hcI.2 (hf.add _) hun (fun e he => (hdeep2 e he).mono (by omega))
    (fun b _ e he => (hdeep2 e he).shuts (by omega) _) (fun e => absurd e hquo)
    (by simp only [List.length_append, List.length_cons, List.length_nil]; omega)
    (by rw [headCost_append]; have := headCost_one (boxFrame X i ss1); omega)
    (by simp only [List.length_append, List.length_cons, List.length_nil]; omega) (fun _ => rfl) k4
  refine ⟨ex', shut [] ex ++ ss, ?_, ?_, m3, m4⟩
  · rw [Frame.add_add] at m1
    exact (k1.trans k3).leads m1
  · rw [List.append_assoc, m2, shut_append]
    simp only [List.append_assoc, k5, Frame.labels, ownLabels_box, List.append_nil]
    simp [Blocks.shapes]

end Rustla
