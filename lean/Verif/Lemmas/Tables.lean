import Verif.Lemmas.Runs
import Verif.Lemmas.Widths
/-! # List tables -/
namespace Rustla
open Spec

/-- Open nodes accept blank lines. -/
theorem Deep.readable {i : Nat} {e : Frame} (h : Deep i e) : e.st.readable := by
  rcases h with ⟨h | h, _⟩ | ⟨_, h, _⟩
  · unfold State.blocky at h
    unfold State.readable
    tauto
  · simp [h, State.readable]
  · have := h.listing
    unfold State.listing at this
    unfold State.readable
    tauto

/-! ## The rows -/

theorem loop_visible {k : Nat} {rest : List Str} (hk : 0 < k) (hr : Ends k rest) : ∀ (ls : List Str) (prev : Option Str),
    (∀ l ∈ ls, isBlank l = false ∧ k ≤ indentOf l) →
    (readIndentedLoop true (some k) false (ls ++ rest) prev (some k)).lines = ls ∧
    (readIndentedLoop true (some k) false (ls ++ rest) prev (some k)).minimal = some k
  | [], prev, _ => by
    have := readIndentedLoop_plain (ls := []) hk (by simp) hr prev
    simpa using this
  | l :: ls, prev, h => by
    obtain ⟨h1, h2⟩ := loop_visible hk hr ls (some l) (fun x hx => h x (by simp [hx]))
    obtain ⟨a, b⟩ := h l (by simp)
    have e1 : ¬ indentOf l < 1 := by omega
    have e2 : ¬ indentOf l < k := by omega
    rw [List.cons_append, readIndentedLoop]
    simp [a, breakWhenNotAligned, e1, e2, updateMinimal, h1, h2]

/-- The block behind a bullet is read up to a blank line. -/
theorem readIndented_bullet {src : List Str} {off i : Nat} {b : Char} {l : Str} {ls rest : List Str}
    (h : src.drop off = bulletLine b i l :: ls ++ rest) (hls : ∀ x ∈ ls, isBlank x = false ∧ i + 2 ≤ indentOf x)
    (hr : Ends (i + 2) rest) :
    ∃ bf, readIndentedBlock src off true true (some (i + 2)) (some (i + 2)) false =
      .ok (.ok (l :: ls.map (·.drop (i + 2))) (i + 2) (ls.length + 1) bf) := by
  have hne : src.isEmpty = false := by
    cases src with
    | nil => simp at h
    | cons => rfl
  have hlen : ¬ src.length < off := by
    intro hlt
    rw [List.drop_eq_nil_of_le (by omega)] at h
    simp at h
  obtain ⟨h1, h2⟩ := loop_visible (by omega) hr ls (some (bulletLine b i l)) hls
  have hstrip : stripBlock (some (i + 2)) (i + 2) (bulletLine b i l :: ls) = l :: ls.map (·.drop (i + 2)) := by
    simp only [stripBlock, drop_bulletLine]
  rw [List.cons_append] at h
  simp only [readIndentedBlock, hne, Bool.false_eq_true, if_false, hlen, Option.or, h, h1, h2, if_true, hstrip]
  rw [List.length_cons, List.length_map]
  exact ⟨_, rfl⟩

/-- A new item of the bullet list in focus, whose first block is read by a parser of its own. -/
theorem AtL.bullet {E : Env} {S : SectionData} {os : List Frame} {s : LoopState} {fs : List Frame} {Q : List Frame → Prop} {l : Str} {ls rest : List Str}
    {c i j r : Nat} {b : Char} {ss : List Shape} (hij : i + E.baseIndent = j) (hN : E.nested = parserOf (r + 1))
    (h : At E S os s (listFrame b j ss :: fs) (bulletLine b i l :: ls ++ rest) c) (hc : c ≤ 9) (hb : b ∈ ['*', '+', '-']) (hl : TextLine l)
    (hls : ∀ x ∈ ls, isBlank x = false ∧ i + 2 ≤ indentOf x) (hr : Ends (i + 2) rest)
    (hn : roundsBound (textSize (l :: ls.map (·.drop (i + 2)))) ≤ r + 1)
    (hrun : ∀ s : LoopState, At ⟨l :: ls.map (·.drop (i + 2)), j + 2, parserOf r⟩ S (listFrame b j ss :: (fs ++ os)) s [itemFrame b j []]
        (l :: ls.map (·.drop (i + 2))) 0 →
      ∃ frames, Q frames ∧ Leads ⟨l :: ls.map (·.drop (i + 2)), j + 2, parserOf r⟩ S (listFrame b j ss :: (fs ++ os)) s frames [] 0) :
    ∃ frames, Q frames ∧ Leads E S os s (frames ++ listFrame b j ss :: fs) rest 0 := by
  obtain ⟨hcls, hw⟩ := bullet_cls hb
  suffices hdo : ∃ frames, Q frames ∧ Does E S s.ps.cursor (listBullet E (bulletMatch b i l)) s.ps
      (.push (frames.map (·.st)).reverse, some (ls.length + 1)) 0
      (frames ++ listFrame b j ss :: (fs ++ os)) (bulletLine b i l :: ls ++ rest) by
    obtain ⟨frames, hQ, hdo⟩ := hdo
    exact ⟨frames, hQ, AtL.enters (ls := ls ++ rest) (n := ls.length + 1) (f' := listFrame b j ss)
      (lines := bulletLine b i l :: ls ++ rest) h hc (ts := listTable E .BulletList) rfl
      ⟨by simp, by simp⟩ (item_transition E hcls hw i hl) hdo rfl (by omega) (by simp) (by simp)⟩
  have hp := h.pos
  unfold listBullet
  have e1 : (bulletMatch b i l).getD .g2 = [b] := rfl
  have e2 : (bulletMatch b i l).getD .g1 = spaces i := rfl
  have e3 : utf8Len (bulletMatch b i l).whole + E.baseIndent = j + 2 := by
    have : utf8Len (bulletMatch b i l).whole = i + 2 := utf8_spaces hb i
    omega
  simp only [e1, e2, e3, List.length_replicate]
  refine Does.bindEx (a := b) ⟨s.ps, rfl, hp⟩ fun s1 p1 => ?_
  refine Does.bindEx (a := s1.doc) ⟨s1, rfl, p1⟩ fun s2 p2 => ?_
  have hdata : asBulletList s1.doc.sharedData = some (b, j, j + 2) := by
    simp only [DocTree.sharedData]; rw [p1.spine.data]; rfl
  refine Does.bindEx (a := (b, j, j + 2)) ⟨s2, by simp only [P.lift, hdata], p2⟩ fun s3 p3 => ?_
  dsimp only
  rw [if_pos ⟨rfl, hij.symm, rfl⟩, hij]
  refine (p3.open (data := .BulletListItem b j (j + 2)) .ListItem rfl simple_item rfl rfl).bindEx fun s4 p4 => ?_
  unfold parseFirstNodeBlock
  simp only [Option.getD_none]
  have c1 : checkedSub (j + 2) E.baseIndent "mod.rs parse_first_node_block" = .ok (i + 2) := by
    unfold checkedSub; rw [if_neg (by omega)]; congr 1; omega
  suffices hdo : ∃ frames, Q frames ∧ Does E S s.ps.cursor (do
      let first ← P.lift (checkedSub (j + 2) E.baseIndent "mod.rs parse_first_node_block")
      let block ← P.lift (checkedSub (j + 2) E.baseIndent "mod.rs parse_first_node_block")
      let (lines, offset) ← P.indentedBlock E true (some block) (some first) false
      let stack ← P.nest E lines (j + 2) .ListItem
      pure (stack, offset)) s4 ((frames.map (·.st)).reverse, ls.length + 1) 0
      (frames ++ listFrame b j ss :: (fs ++ os)) (bulletLine b i l :: ls ++ rest) by
    obtain ⟨frames, hQ, hdo⟩ := hdo
    exact ⟨frames, hQ, hdo.bind fun s9 p9 => p9.pure _⟩
  refine Does.bindEx (a := i + 2) ⟨s4, by simp only [P.lift, c1], p4⟩ fun s5 p5 => ?_
  refine Does.bindEx (a := i + 2) ⟨s5, by simp only [P.lift, c1], p5⟩ fun s6 p6 => ?_
  obtain ⟨bf, hread⟩ := readIndented_bullet p6.here hls hr
  refine Does.bindEx (a := (l :: ls.map (·.drop (i + 2)), ls.length + 1)) ⟨s6, by simp only [P.indentedBlock, hread], p6⟩ fun s7 p7 => ?_
  dsimp only
  obtain ⟨frames, hQ, hd⟩ := p7.nest (f := itemFrame b j []) hN hn rfl (by simp) hrun
  exact ⟨frames, hQ, hd.bind fun s9 p9 => p9.pure _⟩

/-- The cells of a row are the items of a list. -/
def cellItems (b : Char) : List Cell → Items
  | [] => .nil
  | c :: cs => .item (.bullet b) c.lines c.pieces [] .nil (cellItems b cs)

theorem cellItems_lines (b : Char) (i : Nat) : ∀ cs, (cellItems b cs).lines i = cs.flatMap fun c => (Tag.bullet b).lines i c.lines
  | [] => rfl
  | c :: cs => by simp [cellItems, Items.lines, Blocks.lines, cellItems_lines b i cs]

theorem cellItems_shapes (b : Char) (k : Nat) : ∀ cs, (cellItems b cs).shapes k = cs.map (Cell.shape b k)
  | [] => rfl
  | c :: cs => by
    simp only [cellItems, Items.shapes, cellItems_shapes b k cs, List.map_cons]
    rfl

theorem cellItems_ok {b : Char} (hb : b ∈ ['*', '+', '-']) : ∀ {cs : List Cell}, (∀ c ∈ cs, Para c.lines c.pieces) →
    (cellItems b cs).Ok ∧ (cellItems b cs).chained ∧ (cellItems b cs).Tidy
  | [], _ => ⟨trivial, trivial, trivial⟩
  | c :: cs, h => by
    obtain ⟨h1, h2, h3⟩ := cellItems_ok hb (cs := cs) fun x hx => h x (by simp [hx])
    refine ⟨⟨hb, h c (by simp), by simp, fun _ => rfl, fun h => h.elim, trivial, h1⟩, ?_, by simp, trivial, h3⟩
    refine ⟨?_, h2⟩
    intro m hm
    cases cs with
    | nil => cases hm
    | cons c' cs => obtain rfl : Tag.bullet b = m := by simpa [cellItems, Items.first] using hm
                    rfl

theorem cellItems_height (b : Char) : ∀ cs, (cellItems b cs).height ≤ 1 ∧ (cellItems b cs).cost ≤ 1
  | [] => by simp [cellItems, Items.height, Items.cost]
  | c :: cs => by
    have := cellItems_height b cs
    simp only [cellItems, Items.height, Items.cost, Blocks.height, Blocks.cost]
    omega

/-- A line behind a bullet. -/
theorem bullet_text {l : Str} (hl : TextLine l) {b : Char} (hb : b ∈ ['*', '+', '-']) : TextLine (indentLine 0 ((Tag.bullet b).text ++ l)) := by
  have e : indentLine 0 ((Tag.bullet b).text ++ l) = b :: ' ' :: l := rfl
  rw [e]
  obtain ⟨c, hc, hw⟩ := hl.start
  refine ⟨⟨b, rfl, (bullet_cls hb).2⟩, ?_, ?_⟩
  · rintro ⟨a, n, m, ha, e⟩
    cases n with
    | zero =>
      simp only [List.replicate_succ, List.replicate_zero, List.cons_append, List.nil_append, List.cons.injEq] at e
      have : c ∈ List.replicate m ' ' := by
        rw [← e.2]
        exact List.mem_cons_of_mem _ (List.mem_of_mem_head? hc)
      rw [List.eq_of_mem_replicate this] at hw
      revert hw; decide
    | succ n =>
      simp only [List.replicate_succ, List.cons_append, List.cons.injEq] at e
      rw [← e.2.1] at ha
      revert ha; decide
  · intro h
    rcases List.mem_cons.mp h with h | h
    · subst h; revert hb; decide
    · rcases List.mem_cons.mp h with h | h
      · revert h; decide
      · exact hl.oneLine h

/-- The lines of the cells of a row. -/
theorem inner_lines {r : Row} (h : r.Ok) : ∃ l ls, r.inner = l :: ls ∧ TextLine l ∧ ∀ x ∈ ls, isBlank x = false := by
  have hall : ∀ c ∈ r.cells, ∃ l ls, (Tag.bullet r.bullet).lines 0 c.lines = l :: ls ∧ TextLine l ∧ ∀ x ∈ ls, isBlank x = false := by
    intro c hc
    have hp := h.cells c hc
    obtain ⟨l, ls, e⟩ := List.exists_cons_of_ne_nil hp.notEmpty
    have hl := hp.lines
    rw [e] at hl ⊢
    refine ⟨_, _, rfl, ?_, ?_⟩
    · exact bullet_text hl.1.toTextLine h.bullet
    · intro x hx
      obtain ⟨y, hy, rfl⟩ := List.mem_map.mp hx
      exact (front_text (hl.2 y hy) _).not_blank
  unfold Row.inner
  obtain ⟨c, cs, e⟩ := List.exists_cons_of_ne_nil h.notEmpty
  rw [e] at hall ⊢
  obtain ⟨l, ls, e1, h1, h2⟩ := hall c (by simp)
  refine ⟨l, ls ++ cs.flatMap fun c => (Tag.bullet r.bullet).lines 0 c.lines, by rw [List.flatMap_cons, e1]; rfl, h1, ?_⟩
  intro x hx
  rcases List.mem_append.mp hx with hx | hx
  · exact h2 x hx
  · obtain ⟨c', hc', hx⟩ := List.mem_flatMap.mp hx
    obtain ⟨l', ls', e2, h3, h4⟩ := hall c' (by simp [hc'])
    rw [e2] at hx
    rcases List.mem_cons.mp hx with rfl | hx
    · obtain ⟨a, t, rfl, ha⟩ := h3.cons
      exact indented_not_blank (t := t) ha 0
    · exact h4 x hx

/-- A row of a table is read. -/
theorem AtL.row {E : Env} {S : SectionData} {os : List Frame} {s : LoopState} {fs : List Frame} {rest : List Str} {r : Row}
    {c i j n : Nat} {b : Char} {ss : List Shape} (hE : Fits E n i j) (hb : b ∈ ['*', '+', '-']) (hr : r.Ok)
    (h : At E S os s (listFrame b j ss :: fs) (r.lines b i ++ rest) c) (hc : c ≤ 9) (hend : r.gap = [] → Ends (i + 2) rest)
    (hsz : roundsBound (textSize (r.lines b i)) ≤ n) :
    ∃ ex, Leads E S os s (ex ++ listFrame b j ss :: fs) rest 0 ∧ shut [] ex = [r.shape b j] ∧ ex.length ≤ 3 ∧ ∀ e ∈ ex, Deep (j + 1) e := by
  obtain ⟨l, ls, e, hl, hls⟩ := inner_lines hr
  obtain ⟨m, rfl⟩ : ∃ m, n = m + 1 := ⟨n - 1, by have := lt_roundsBound (textSize (r.lines b i)); omega⟩
  have hsize : textSize (l :: ls) < textSize (r.lines b i) := by
    have hle : textSize ls ≤ textSize (ls.map (indentLine (i + 2))) := by
      clear e hls
      induction ls with
      | nil => exact Nat.le_refl _
      | cons x ls ih => rw [List.map_cons, textSize_cons, textSize_cons]; simp only [indentLine, List.length_append]; omega
    have e' : r.lines b i = bulletLine b i l :: ls.map (indentLine (i + 2)) ++ r.gap := by
      unfold Row.lines; rw [e]; rfl
    rw [e', textSize_append, textSize_cons, textSize_cons]
    have : (bulletLine b i l).length = i + 2 + l.length := by simp [bulletLine]; omega
    omega
  have hm : roundsBound (textSize (l :: ls)) ≤ m := by have := roundsBound_lt hsize; omega
  have e1 : r.lines b i ++ rest = bulletLine b i l :: ls.map (indentLine (i + 2)) ++ (r.gap ++ rest) := by
    unfold Row.lines
    rw [e, List.append_assoc]
    rfl
  have e2 : (ls.map (indentLine (i + 2))).map (·.drop (i + 2)) = ls := by
    rw [List.map_map]
    conv => rhs; rw [← List.map_id ls]
    exact List.map_congr_left fun x _ => drop_indentLine _ x
  rw [e1] at h
  have hrun : ∀ s : LoopState, At ⟨l :: ls, j + 2, parserOf m⟩ S (listFrame b j ss :: (fs ++ os)) s [itemFrame b j []] (l :: ls) 0 →
      ∃ frames, (shut [] frames = [r.shape b j] ∧ frames.length ≤ 3 ∧ (∀ e ∈ frames, Deep (j + 1) e) ∧ frames ≠ []) ∧
        Leads ⟨l :: ls, j + 2, parserOf m⟩ S (listFrame b j ss :: (fs ++ os)) s frames [] 0 := by
    intro s h
    have hcells := cellItems_ok hr.bullet hr.cells
    have hne : cellItems r.bullet r.cells ≠ .nil := by
      obtain ⟨c, cs, e⟩ := List.exists_cons_of_ne_nil hr.notEmpty
      rw [e]; simp [cellItems]
    have hfirst : ∀ m, (cellItems r.bullet r.cells).first = some m → m = .bullet r.bullet := by
      intro m hm
      cases hc : r.cells with
      | nil => exact absurd hc hr.notEmpty
      | cons c cs => rw [hc] at hm; simpa [cellItems, Items.first, eq_comm] using hm
    have hB : (Blocks.list (cellItems r.bullet r.cells) .nil).Ok := by
      refine ⟨hne, hcells.1, ⟨hcells.2.1, ?_⟩, ?_, ?_, ?_, trivial⟩
      · intro m hm; rw [hfirst m hm]; trivial
      · intro m m' _ h; cases h
      · exact fun _ => .inl rfl
      · exact fun h => h.elim
    have hlines : (Blocks.list (cellItems r.bullet r.cells) .nil).lines 0 = l :: ls := by
      simp only [Blocks.lines, cellItems_lines, List.append_nil]
      exact e
    have hh := cellItems_height r.bullet r.cells
    have hruns : ∀ cs, RunsItems (cellItems r.bullet cs) := by
      intro cs
      induction cs with
      | nil => exact runs_no_items
      | cons c cs ih => exact runs_item runs_nil ih
    obtain ⟨ex, ss', k1, k2, k3, k4, k5⟩ := runs_list (hruns r.cells) runs_nil (E := ⟨l :: ls, j + 2, parserOf m⟩) (n := m) (i := 0) (j := j + 2)
      (H := 2) (C := 2) (f := itemFrame b j []) (fs := []) (ex := []) (after := []) (s := s) (c := 0) ⟨by simp, rfl⟩ hB (by rw [hlines]; exact hm)
      (.inr ⟨hcells.2.2, trivial⟩) (.inr (by intro l hl; cases hl)) (by intro l hl; cases hl) (by simp only [Blocks.height]; omega) (by omega)
      (by simp only [Blocks.cost]; omega) (itemFrame_body _ b j []) (by simp) (by simp) (by simp) (by simp) (by simp) (by simp [headCost]) (by simp) (by simp)
      (by rw [hlines]; simpa using h)
    refine ⟨ex ++ [(itemFrame b j []).add ss'], ⟨?_, by simp; omega, ?_, by simp⟩, k1⟩
    · have k2' : ss' ++ shut [] ex = [.node (.BulletList r.bullet (j + 2) (j + 4)) (r.cells.map (Cell.shape r.bullet (j + 2)))] := by
        rw [k2, ← cellItems_shapes]
        obtain ⟨c, cs, e⟩ := List.exists_cons_of_ne_nil hr.notEmpty
        simp only [shut, List.nil_append, Blocks.shapes, List.append_nil, e]
        rfl
      rw [shut_append]
      simp only [Frame.add, List.nil_append, k2']
      rfl
    · intro e he
      rcases List.mem_append.mp he with he | he
      · exact (k4 e he).mono (by omega)
      · obtain rfl := List.mem_singleton.mp he
        exact .inl ⟨.inl (.inl rfl), j + 2, rfl, by omega⟩
  rw [← e2] at hrun
  rw [e2] at hrun
  obtain ⟨ex, ⟨k1, k2, k3, k4⟩, s1, k5, k6⟩ := AtL.bullet (Q := fun frames => shut [] frames = [r.shape b j] ∧ frames.length ≤ 3 ∧ (∀ e ∈ frames, Deep (j + 1) e) ∧ frames ≠ [])
    hE.shift hE.nested h hc hb hl (by
      intro x hx
      obtain ⟨y, hy, rfl⟩ := List.mem_map.mp hx
      refine ⟨?_, le_indentOf _ y⟩
      rw [isBlank_indent]; exact hls y hy) (ends_gap hr.gap hend) (by rw [e2]; omega) (by rw [e2]; exact hrun)
  obtain ⟨e0, ex', rfl⟩ := List.exists_cons_of_ne_nil k4
  obtain ⟨s2, k7, k8⟩ := k6.blanks (k3 e0 (by simp)).readable hr.gap
  exact ⟨e0 :: ex', ⟨s2, k5.trans k7, k8⟩, k1, k2, k3⟩

/-- The rows of a table are read. -/
theorem AtL.rows {E : Env} {S : SectionData} {os : List Frame} {fs : List Frame} {i j n : Nat} {b : Char} (hE : Fits E n i j)
    (hb : b ∈ ['*', '+', '-']) : ∀ {rows : List Row} {s : LoopState} {ex : List Frame} {ss : List Shape} {c : Nat}, (∀ r ∈ rows, r.Ok) →
    At E S os s (ex ++ listFrame b j ss :: fs) (rows.flatMap (Row.lines b i)) c → c + ex.length ≤ 4 → (rows = [] → c = 0) → (∀ e ∈ ex, Deep (j + 1) e) → 
    roundsBound (textSize (rows.flatMap (Row.lines b i))) ≤ n →
    ∃ ex' ss', Leads E S os s (ex' ++ listFrame b j ss' :: fs) [] 0 ∧ ss' ++ shut [] ex' = ss ++ shut [] ex ++ rows.map (Row.shape b j)
  | [], s, ex, ss, c, _, h, _, hc, _, _ => by
    obtain rfl := hc rfl
    exact ⟨ex, ss, h.leads, by simp⟩
  | r :: rows, s, ex, ss, c, hr, h, hc, _, hex, hsz => by
    obtain ⟨l, ls, e, hl, hls⟩ := inner_lines (hr r (by simp))
    have hrow := hr r (by simp)
    rw [List.flatMap_cons] at h hsz
    have hstart : Starts E i (some (.bullet b)) (r.lines b i ++ rows.flatMap (Row.lines b i)) := by
      unfold Row.lines
      rw [e]
      exact .tag (g := []) (ls := ls.map (indentLine (i + 2)) ++ r.gap ++ _) hb hl (fun h => h.elim)
    obtain ⟨s1, k1, k2⟩ := h.unwind hE.shift hstart ex.length ex rfl (fun e he => (hex e he).shuts (by omega) _) (by omega)
    have hend : r.gap = [] → Ends (i + 2) (rows.flatMap (Row.lines b i)) := by
      intro _
      cases rows with
      | nil => intro l hl; cases hl
      | cons r' rows =>
        obtain ⟨l', ls', e', hl', hls'⟩ := inner_lines (hr r' (by simp))
        intro x hx
        have hx' : x = bulletLine b i l' := by
          simp only [List.flatMap_cons, Row.lines, e'] at hx
          exact (Option.some.inj hx).symm
        subst hx'
        exact .inr ⟨⟨i, b, ' ' :: l', by omega, rfl, (bullet_cls hb).2⟩, bulletLine_not_line i hl'⟩
    obtain ⟨ex1, ⟨s2, k3, k4⟩, k5, k6, k7⟩ := AtL.row hE hb hrow k2 (by omega) hend (rounds_part hsz (by simp only [textSize_append]; omega))
    obtain ⟨ex2, ss2, k8, k9⟩ := AtL.rows hE hb (fun x hx => hr x (by simp [hx])) k4 (by omega) (fun _ => rfl) k7
      (rounds_part hsz (by simp only [textSize_append]; omega))
    refine ⟨ex2, ss2, (k1.trans k3).leads k8, ?_⟩
    rw [k9, k5]
    simp

/-- The first bullet of a table opens the list of its rows. -/
theorem AtL.open_rows {E : Env} {S : SectionData} {os : List Frame} {s : LoopState} {f : Frame} {fs : List Frame} {l : Str} {ls : List Str}
    {c : Nat} {b : Char} {i j : Nat} (hij : i + E.baseIndent = j) (h : At E S os s (f :: fs) (bulletLine b i l :: ls) c)
    (hc : c ≤ 9) (hf : f.st = .ListTable) (hk : f.data.kind = .ListTable) (hi : f.data.bodyIndent = some j) (hb : b ∈ ['*', '+', '-']) (hl : TextLine l) :
    Leads E S os s (listFrame b j [] :: f :: fs) (bulletLine b i l :: ls) (c + 1) := by
  obtain ⟨d', h1, h2, h3⟩ := h.spine.push (data := .BulletList b j (j + 2)) .BulletList (by rw [hk]; rfl)
    simple_list rfl rfl h.calm
  have hres : bodyBullet E (bulletMatch b i l) s.ps = .ok (.push [.BulletList], none) { s.ps with doc := d' } := by
    rw [bodyBullet_acts, hij, atIndent_right h.spine hi]
    simp only [bind, P.bind, h1, pure, P.pure]
  have := step_stays (h.stands hc) (ts := listTable E .ListTable) (by rw [hf]; rfl) (by rw [hf]; simp)
    (table_transition E (bullet_cls hb).1 (bullet_cls hb).2 i hl) hres rfl
    (stack := s.stack ++ [.BulletList]) rfl
  refine ⟨_, .step this, ⟨h.here, h2, ?_, ?_, h3.trans h.secs⟩⟩
  · simp [h.stack_cons, stackFor]
  · have := h.count; simp only; omega

/-! ## The columns -/

theorem shapeOf_inv {n : TreeNode} {d : NodeType} {ls : List Str} {x : Shape} {xs : List Shape} (h : shapeOf n = .labelled d ls (x :: xs)) :
    n.data = d ∧ ∃ cs, n.children = some cs ∧ shapesOf cs = x :: xs := by
  cases n with
  | mk a b c data cs =>
    cases cs with
    | none => simp [shapeOf] at h
    | some cs =>
      simp only [shapeOf, Shape.labelled.injEq] at h
      exact ⟨h.1, cs, rfl, h.2.2⟩

theorem shapesOf_inv {cs : List TreeNode} {x : Shape} {xs : List Shape} (h : shapesOf cs = x :: xs) :
    ∃ c cs', cs = c :: cs' ∧ shapeOf c = x ∧ shapesOf cs' = xs := by
  cases cs with
  | nil => simp [shapesOf] at h
  | cons c cs =>
    simp only [shapesOf, List.cons.injEq] at h
    exact ⟨c, cs, rfl, h.1, h.2⟩

theorem cells_counted {b : Char} {k : Nat} : ∀ {cells : List Cell} {cs : List TreeNode}, shapesOf cs = cells.map (Cell.shape b k) →
    (cs.filter fun i => i.data.kind = .BulletListItem).length = cells.length
  | [], cs, h => by
    cases cs with
    | nil => rfl
    | cons => simp [shapesOf] at h
  | c :: cells, cs, h => by
    obtain ⟨x, xs, rfl, h1, h2⟩ := shapesOf_inv h
    have := cells_counted h2
    obtain ⟨h3, _⟩ := shapeOf_inv h1
    have hk : decide (x.data.kind = .BulletListItem) = true := by rw [h3]; rfl
    simp only [List.filter_cons, hk, if_true, List.length_cons, this]

theorem row_counted {r : Row} (hr : r.Ok) {b : Char} {k : Nat} {n : TreeNode} (h : shapeOf n = r.shape b k) : rowEntries n = some r.cells.length := by
  obtain ⟨_, cs, h1, h2⟩ := shapeOf_inv h
  obtain ⟨x, xs, rfl, h3, _⟩ := shapesOf_inv h2
  have hne : r.cells.map (Cell.shape r.bullet (k + 2)) ≠ [] := by simpa using hr.notEmpty
  obtain ⟨y, ys, e⟩ := List.exists_cons_of_ne_nil hne
  rw [e] at h3
  obtain ⟨h4, cs, h5, h6⟩ := shapeOf_inv h3
  rw [← e] at h6
  unfold rowEntries
  have hk : x.data.kind = .BulletList := by rw [h4]; rfl
  simp only [h1, hk, if_true, h5, Option.map_some, cells_counted h6]

theorem rows_counted {b : Char} {k : Nat} : ∀ {rows : List Row} {cs : List TreeNode}, (∀ r ∈ rows, r.Ok) → shapesOf cs = rows.map (Row.shape b k) →
    cs.mapM rowEntries = some (rows.map fun r => r.cells.length)
  | [], cs, _, h => by
    cases cs with
    | nil => rfl
    | cons => simp [shapesOf] at h
  | r :: rows, cs, hr, h => by
    obtain ⟨x, xs, rfl, h1, h2⟩ := shapesOf_inv h
    rw [List.mapM_cons, row_counted (hr r (by simp)) h1, rows_counted (fun x hx => hr x (by simp [hx])) h2]
    rfl

theorem foldl_max (ns : List Nat) : ∀ a, ns.foldl max a = max a (ns.foldr max 0) := by
  induction ns with
  | nil => intro a; simp
  | cons n ns ih => intro a; rw [List.foldl_cons, ih, List.foldr_cons]; omega

/-- The columns of a table are counted. -/
theorem table_counted {T : Table} (hT : T.Ok) {k : Nat} {cs : List TreeNode}
    (h : shapesOf cs = [.node (.BulletList T.bullet k (k + 2)) (T.rows.map (Row.shape T.bullet k))]) : tableColumns (some cs) = some T.columns := by
  obtain ⟨x, xs, rfl, h1, h2⟩ := shapesOf_inv h
  have hne : T.rows.map (Row.shape T.bullet k) ≠ [] := by simpa using hT.notEmpty
  obtain ⟨y, ys, e⟩ := List.exists_cons_of_ne_nil hne
  rw [e] at h1
  obtain ⟨h3, cs, h4, h5⟩ := shapeOf_inv h1
  rw [← e] at h5
  have hk : x.data.kind = .BulletList := by rw [h3]; rfl
  unfold tableColumns
  simp only [hk, if_true, h4, rows_counted hT.rows h5, Option.map_some]
  rw [foldl_max, Nat.zero_max]
  rfl

/-! ## The table -/

/-- Nodes are left from the innermost on. -/
theorem Pos.leave {E : Env} {S : SectionData} {c0 : LineCursor} {k : Nat} {f : Frame} {fs : List Frame} {lines : List Str} :
    ∀ (n : Nat) (ex : List Frame), ex.length = n → ∀ {s : PS},
    Pos E S c0 s k (ex ++ f :: fs) lines → Does E S c0 (leaveNested n) s () k (f.add (shut [] ex) :: fs) lines := by
  intro n
  induction n with
  | zero =>
    intro ex hn s h
    obtain rfl := List.length_eq_zero_iff.mp hn
    rw [shut, Frame.add_nil]; exact h.pure ()
  | succ n ih =>
    intro ex hn s h
    cases ex with
    | nil => cases hn
    | cons e ex =>
      cases ex with
      | nil =>
        have e2 : shut [] [e] = [e.shape] := by simp [shut, Frame.shape]
        rw [e2]
        obtain rfl : n = 0 := by simpa using hn.symm
        exact Does.bind (Pos.close h) fun s1 p1 => p1.pure ()
      | cons g es =>
        refine Does.bind (Pos.close (fs := es ++ f :: fs) h) fun s1 p1 => ?_
        have := ih (g.add [e.shape] :: es) (by simpa using hn) p1
        have e2 : shut [] (g.add [e.shape] :: es) = shut [] (e :: g :: es) := by
          rw [shut_add]; simp [shut, Frame.shape]
        rw [e2] at this
        exact this

/-- The frame of a table. -/
abbrev tableFrame (data : NodeType) (ss : List Shape) : Frame := ⟨.ListTable, data, ss, []⟩

theorem simple_table : Simple .ListTable := ⟨by decide, by decide, by decide, by decide, by decide⟩

/-- A round in which the transition moves the cursor itself, moves forward and opens nodes. -/
theorem AtL.entered {E : Env} {S : SectionData} {os : List Frame} {s : LoopState} {f : Frame} {fs new : List Frame} {l : Str} {ls rest : List Str} {c : Nat}
    (h : At E S os s (f :: fs) (l :: ls) c) (hc : c ≤ 9)
    {ts : List (Re × Transition)} (ht : tableOf E f.st = .ok ts) (hst : f.st ≠ .EOF ∧ f.st ≠ .Failure) {m : Match} {t : Transition}
    (hf : firstTransition l ts = some (m, t)) {k n : Nat} {f' : Frame} {lines : List Str}
    (hd : Does E S s.ps.cursor (t m) s.ps (.push (new.map (·.st)).reverse, some n) k (new ++ f' :: (fs ++ os)) lines) (hs : f'.st = f.st)
    (h0 : k + n ≠ 0) (hle : k + n ≤ (l :: ls).length) (hr : rest = (l :: ls).drop (k + n)) :
    Leads E S os s (new ++ f' :: fs) rest 0 := by
  obtain ⟨ps, hres, hp⟩ := hd
  have hstack := h.stack_cons
  have hcur : applyAdvance ps.cursor (some n) = s.ps.cursor.incrementBy (k + n) := by
    rw [hp.cursor, ← LineCursor.incrementBy_add]; rfl
  have hstep := step_moved (h.stands hc) ht hst hf hres (stack := s.stack ++ (new.map (·.st)).reverse) rfl hcur h0 hle
  refine ⟨_, .step hstep, ⟨?_, ?_, ?_, Nat.le_refl _, hp.secs⟩⟩
  · rw [hr]; exact drop_incr h.here (k + n)
  · simpa using hp.spine
  · simp [hstack, hs, hr, stackFor]

theorem dispatch_table (E : Env) (b k : Nat) (e : Bool) : dispatchDirective E (str! "list-table") b k e = parseListTable E b k e := rfl

theorem Pos.args {E : Env} {S : SectionData} {c0 : LineCursor} {s : PS} {k : Nat} {fs : List Frame} {d : Dir} {i b : Nat} {rest : List Str}
    (h : Pos E S c0 s k fs (d.lines i ++ rest)) (hd : d.Ok) (hr : Stops rest) :
    Does E S c0 (P.arguments E b (spaces i ++ d.head).length (isBlank d.arg)) s d.args (k + 1) fs
      (d.opts.map (fun o => indentLine (i + 3) (optionLine o)) ++ rest) := by
  refine ⟨{ s with cursor := s.cursor.incrementBy 1 }, scan_arguments hd h.here hr, ⟨?_, drop_incr h.here 1, h.spine, h.secs⟩⟩
  show s.cursor.incrementBy 1 = _
  rw [h.cursor, LineCursor.incrementBy_add]

/-- A row without the first columns of the blank lines behind it. -/
def Spec.Row.cut (k : Nat) (r : Row) : Row := { r with gap := r.gap.map (·.drop k) }

theorem Spec.Row.Ok.cut {r : Row} (h : r.Ok) (k : Nat) : (r.cut k).Ok :=
  ⟨h.bullet, h.notEmpty, h.cells, fun l hl => by obtain ⟨x, hx, rfl⟩ := List.mem_map.mp hl; exact blank_drop (h.gap x hx) k⟩

theorem row_cut {r : Row} (h : r.Ok) (b : Char) (k : Nat) : (r.lines b k).map (·.drop k) = (r.cut k).lines b 0 := by
  obtain ⟨l, ls, e, hl, hls⟩ := inner_lines h
  have e' : (r.cut k).inner = l :: ls := e
  unfold Row.lines
  rw [e, e', List.map_append]
  have hd : ∀ x, (indentLine (k + 2) x).drop k = indentLine (0 + 2) x := by
    intro x
    have : indentLine (k + 2) x = indentLine k (indentLine 2 x) := by
      simp only [indentLine]; rw [← List.replicate_append_replicate, List.append_assoc]
    rw [this, drop_indentLine]
  show ((indentLine k ((Tag.bullet b).text ++ l) :: ls.map (indentLine (k + 2))).map _ ++ _) = (indentLine 0 ((Tag.bullet b).text ++ l) :: ls.map (indentLine (0 + 2))) ++ _
  rw [List.map_cons, drop_indentLine, List.map_map]
  congr 2
  exact List.map_congr_left fun x _ => hd x

theorem rows_cut {rows : List Row} (h : ∀ r ∈ rows, r.Ok) (b : Char) (k : Nat) :
    (rows.flatMap (Row.lines b k)).map (·.drop k) = (rows.map (Row.cut k)).flatMap (Row.lines b 0) := by
  induction rows with
  | nil => rfl
  | cons r rows ih =>
    rw [List.flatMap_cons, List.map_append, row_cut (h r (by simp)), ih fun x hx => h x (by simp [hx])]
    rfl

/-- The list of the rows of a table is read. -/
theorem table_runs {S : SectionData} {os : List Frame} {m j : Nat} {b : Char} {rows : List Row} {f : Frame} {s : LoopState} {g : List Str}
    (hg : g = rows.flatMap (Row.lines b 0)) (hne : rows ≠ []) (hr : ∀ r ∈ rows, r.Ok) (hb : b ∈ ['*', '+', '-'])
    (hf : f.st = .ListTable) (hk : f.data.kind = .ListTable) (hi : f.data.bodyIndent = some j)
    (hsz : roundsBound (textSize g) ≤ m) (h : At ⟨g, j, parserOf m⟩ S os s [f] g 0) :
    ∃ frames, (∃ ex ss, frames = ex ++ [listFrame b j ss, f] ∧ ss ++ shut [] ex = rows.map (Row.shape b j)) ∧
      Leads ⟨g, j, parserOf m⟩ S os s frames [] 0 := by
  obtain ⟨r, rows', e⟩ := List.exists_cons_of_ne_nil hne
  obtain ⟨l, ls, e1, hl, hls⟩ := inner_lines (hr r (by rw [e]; simp))
  have e2 : g = bulletLine b 0 l :: (ls.map (indentLine (0 + 2)) ++ r.gap ++ rows'.flatMap (Row.lines b 0)) := by
    rw [hg, e, List.flatMap_cons]
    unfold Row.lines
    rw [e1]
    rfl
  have h' := h
  rw [show At ⟨g, j, parserOf m⟩ S os s [f] g 0 = At ⟨g, j, parserOf m⟩ S os s [f] (bulletLine b 0 l :: (ls.map (indentLine (0 + 2)) ++ r.gap ++ rows'.flatMap (Row.lines b 0))) 0 by rw [← e2]] at h'
  obtain ⟨s1, k1, k2⟩ := AtL.open_rows (E := ⟨g, j, parserOf m⟩) (i := 0) (j := j) (by simp) h' (by omega) hf hk hi hb hl
  rw [← e2, hg] at k2
  obtain ⟨ex, ss, k3, k4⟩ := AtL.rows (n := m) (i := 0) (j := j) (E := ⟨g, j, parserOf m⟩) (ex := []) (ss := []) (fs := [f]) (rows := rows) ⟨by simp, rfl⟩ hb hr
    (by rw [hg]; exact k2) (by simp) (by intro e; exact absurd e hne) (by simp) (by rw [← hg]; exact hsz)
  exact ⟨_, ⟨ex, ss, rfl, by rw [k4]; simp [shut]⟩, k1.leads k3⟩

theorem rows_front {rows : List Row} (hne : rows ≠ []) (hr : ∀ r ∈ rows, r.Ok) {b : Char} (hb : b ∈ ['*', '+', '-']) (k : Nat) :
    ∃ l ls, rows.flatMap (Row.lines b k) = l :: ls ∧ isBlank l = false ∧ indentOf l = k := by
  obtain ⟨r, rows', e⟩ := List.exists_cons_of_ne_nil hne
  obtain ⟨l, ls, e1, hl, hls⟩ := inner_lines (hr r (by rw [e]; simp))
  refine ⟨bulletLine b k l, ls.map (indentLine (k + 2)) ++ r.gap ++ rows'.flatMap (Row.lines b k), ?_, ?_, ?_⟩
  · rw [e, List.flatMap_cons]
    unfold Row.lines
    rw [e1]
    rfl
  · exact indented_not_blank (bullet_cls hb).2 k
  · exact indentOf_indented (bullet_cls hb).2 k

/-- The node of a table before its columns are counted. -/
def Spec.Table.fresh (T : Table) (k : Nat) : NodeType :=
  .ListTable k (if ((T.dir.args.map (joinWith [' '])).getD []).isEmpty then none else some ((T.dir.args.map (joinWith [' '])).getD [])) T.widths.read
    T.dir.extent (T.dir.number 32 (str! "header-rows")) (T.dir.number 32 (str! "stub-columns")) ((T.dir.get (str! "align")).bind (fromTable tableSides))

theorem fresh_widths (T : Table) (k : Nat) : setWidths T.columns (T.fresh k) = T.node k := by
  unfold Table.fresh Table.node
  have e : (if ((T.dir.args.map (joinWith [' '])).getD []).isEmpty then none else some ((T.dir.args.map (joinWith [' '])).getD [])) =
      (if T.dir.arg = [] then none else some T.dir.arg) := by
    by_cases h : T.dir.arg = []
    · rw [Dir.args_none h, if_pos h]; rfl
    · rw [Dir.args_some h, if_neg h]
      have : T.dir.arg.isEmpty = false := by cases h' : T.dir.arg with
        | nil => exact absurd h' h
        | cons => rfl
      simp [joinWith, this]
  rw [e]
  cases T.widths <;> rfl

/-- A list table is read. -/
theorem AtL.table {E : Env} {S : SectionData} {os : List Frame} {s : LoopState} {f : Frame} {fs : List Frame} {T : Table} {rest : List Str} {n i c : Nat}
    (hN : E.nested = parserOf n) (h0 : E.baseIndent = 0) (h : At E S os s (f :: fs) (T.lines i ++ rest) c) (hc : c ≤ 9) (hf : f.Body E i)
    (hT : T.Ok) (hr : Low (i + 3) rest) (hsz : roundsBound (textSize (T.lines i)) ≤ n) :
    Leads E S os s (tableFrame (T.node (i + 3))
      [.node (.BulletList T.bullet (i + 3) (i + 5)) (T.rows.map (Row.shape T.bullet (i + 3)))] :: f :: fs) rest 0 := by
  obtain ⟨l, ls, hL, hl, hi⟩ := rows_front hT.notEmpty hT.rows hT.bullet (i + 3)
  have hlines : T.lines i ++ rest = T.dir.lines i ++ (T.gap ++ l :: (ls ++ rest)) := by
    unfold Table.lines; rw [hL]; simp
  obtain ⟨m, rfl⟩ : ∃ m, n = m + 1 := ⟨n - 1, by have := lt_roundsBound (textSize (T.lines i)); omega⟩
  have hwithin : ∀ x ∈ l :: ls, Within (i + 3) x := by
    intro x hx
    rw [← hL] at hx
    obtain ⟨r, hr', hx⟩ := List.mem_flatMap.mp hx
    exact within_row (hT.rows r hr') _ _ x hx
  have hsize : textSize ((l :: ls).map (·.drop (i + 3))) < textSize (T.lines i) := by
    have h1 := textSize_map_le (f := (·.drop (i + 3))) (fun l => by simp) (l :: ls)
    have h2 : textSize (T.lines i) = textSize (T.dir.lines i) + (textSize T.gap + textSize (l :: ls)) := by
      unfold Table.lines; rw [hL]; simp only [textSize_append]
    have h3 : 0 < textSize (T.dir.lines i) := by unfold Dir.lines; rw [textSize_cons]; omega
    omega
  have hm : roundsBound (textSize ((l :: ls).map (·.drop (i + 3)))) ≤ m := by have := roundsBound_lt hsize; omega
  rw [hlines] at h
  have M : Enters E s.ps f (fs ++ os) i T.dir (T.gap ++ l :: (ls ++ rest)) :=
    ⟨⟨h.here, h.spine, by rw [h0]; exact hf.indent⟩, hT.dir, .gap hT.gap.1 hT.gap.2⟩
  have hbody : bodyOf E s.ps i T.dir = i + 3 := by
    unfold bodyOf
    rw [subsequent_content h.here hT.gap.2 hl hi (fun _ => rfl)]; rfl
  have hpos : Pos E S s.ps.cursor s.ps 0 (f :: (fs ++ os)) (T.dir.lines i ++ (T.gap ++ l :: (ls ++ rest))) := ⟨rfl, h.here, h.spine, h.secs⟩
  have hdo : Does E S s.ps.cursor (bodyDirective E (directiveMatch T.dir i)) s.ps (.push [.ListTable], some (ls.length + 1)) (T.dir.lines i ++ T.gap).length
      (tableFrame (T.node (i + 3)) [.node (.BulletList T.bullet (i + 3) (i + 5)) (T.rows.map (Row.shape T.bullet (i + 3)))] :: f :: (fs ++ os)) (l :: (ls ++ rest)) := by
    unfold Does
    rw [M.dispatch, hT.key, dispatch_table, hbody]
    show Does E S s.ps.cursor (parseListTable E (i + 3) (spaces i ++ T.dir.head).length (isBlank T.dir.arg)) s.ps _ _ _ _
    unfold parseListTable
    refine (hpos.args hT.dir (.gap hT.gap.1 hT.gap.2)).bind fun s1 h1 => ?_
    obtain ⟨gap', k, hb', hk, hopt⟩ := h1.options hT.dir hT.gap.1 hT.gap.2
    refine hopt.bind fun s2 h2 => ?_
    simp only [Dir.optionOf, hT.option, tableWidths_read hT.widths, tableAlign_sides, tableWidth_extent]
    refine Does.bind (h2.pure _) fun s3 h3 => ?_
    refine (h3.skip hb' (by intro x hx; cases hx; exact hl)).bind fun s4 h4 => ?_
    refine Does.bind (a := ()) (fs := tableFrame (T.fresh (i + 3)) [] :: f :: (fs ++ os)) (Pos.open h4 (data := T.fresh (i + 3)) .ListTable (hf.kids .ListTable (by decide)) simple_table rfl rfl) fun s5 h5 => ?_
    have hread := indented_reads (E := E) (s := s5) (k := i + 3) (l := l) (ls := ls) (rest := rest) (first := none) (by omega)
      (by rw [h5.here]; rfl) (by
        intro x hx
        rcases hwithin x (by simp [hx]) with h | ⟨y, rfl⟩
        · exact .inl h
        · exact .inr (le_indentOf _ y)) hr (.inl rfl)
    refine Does.bind ⟨s5, hread, h5⟩ fun s6 h6 => ?_
    have hcut := rows_cut hT.rows T.bullet (i + 3)
    rw [hL] at hcut
    obtain ⟨frames, ⟨ex, ss, rfl, hss⟩, hnest⟩ := h6.nest (base := i + 3) (g := (l :: ls).map (·.drop (i + 3))) hN (by omega) rfl (by simp)
      (fun s hs => table_runs (rows := T.rows.map (Row.cut (i + 3))) hcut (by simpa using hT.notEmpty)
        (by intro r hr; obtain ⟨x, hx, rfl⟩ := List.mem_map.mp hr; exact (hT.rows x hx).cut _) hT.bullet rfl rfl rfl hm hs)
    refine hnest.bind fun s7 h7 => ?_
    have hss' : ss ++ shut [] ex = T.rows.map (Row.shape T.bullet (i + 3)) := by
      rw [hss, List.map_map]; rfl
    have e7 : ∀ g : Frame, ex ++ [listFrame T.bullet (i + 3) ss, g] ++ f :: (fs ++ os) = (ex ++ [listFrame T.bullet (i + 3) ss]) ++ g :: f :: (fs ++ os) := by
      intro g; simp
    rw [e7] at h7
    refine (Pos.leave _ (ex ++ [listFrame T.bullet (i + 3) ss]) (by simp) h7).bind fun s8 h8 => ?_
    refine Does.bind ⟨s8, rfl, h8⟩ fun s9 h9 => ?_
    obtain ⟨cs, hcs, hshapes⟩ := h8.spine.kids
    have hshapes' : shapesOf cs = [.node (.BulletList T.bullet (i + 3) (i + 3 + 2)) (T.rows.map (Row.shape T.bullet (i + 3)))] := by
      rw [hshapes, shut_append]
      show [] ++ _ = _
      rw [← hss']
      rfl
    have hkind : s8.doc.sharedData.kind = .ListTable := by
      show s8.doc.tree.node.data.kind = _
      rw [h8.spine.data]; rfl
    have hcols : tableColumns s8.doc.sharedChildren = some T.columns := by
      show tableColumns s8.doc.tree.node.children = _
      rw [hcs]; exact table_counted hT hshapes'
    simp only [hkind, ne_eq, not_true_eq_false, if_false]
    refine (h9.required hcols).bind fun s10 h10 => ?_
    have hdata : ∀ ss : List Shape, ((tableFrame (T.fresh (i + 3)) []).add ss).data = T.fresh (i + 3) := fun _ => rfl
    refine (h10.mapData (g := setWidths T.columns) simple_table (by rw [hdata, fresh_widths]; exact simple_table) (by rw [hdata, fresh_widths]; rfl)).bind fun s11 h11 => ?_
    rw [hdata, fresh_widths] at h11
    have e11 : 0 + k + gap'.length = (T.dir.lines i ++ T.gap).length := by omega
    rw [e11] at h11
    have e12 : ({ ((tableFrame (T.fresh (i + 3)) []).add (shut [] (ex ++ [listFrame T.bullet (i + 3) ss]))) with data := T.node (i + 3) } : Frame) =
        tableFrame (T.node (i + 3)) [.node (.BulletList T.bullet (i + 3) (i + 5)) (T.rows.map (Row.shape T.bullet (i + 3)))] := by
      rw [shut_append, ← hss']; rfl
    rw [e12] at h11
    exact h11.pure _
  obtain ⟨ts, hts, hts'⟩ := hf.table
  have e : T.dir.lines i ++ (T.gap ++ l :: (ls ++ rest)) =
      indentLine i T.dir.marker :: (T.dir.opts.map (fun o => indentLine (i + 3) (optionLine o)) ++ (T.gap ++ l :: (ls ++ rest))) := rfl
  have hlen : (T.dir.lines i ++ T.gap).length + (ls.length + 1) ≤ (T.dir.lines i ++ (T.gap ++ l :: (ls ++ rest))).length := by
    simp only [List.length_append, List.length_cons]; omega
  have hdrop : rest = (T.dir.lines i ++ (T.gap ++ l :: (ls ++ rest))).drop ((T.dir.lines i ++ T.gap).length + (ls.length + 1)) := by
    rw [← List.append_assoc, ← List.drop_drop, List.drop_left]
    simp
  rw [e] at h hlen hdrop
  exact h.entered (new := [_]) hc hts hf.notEnd ((hts' _ (noBreak_dir hT.dir i)).trans (directive_transition E hT.dir i).1) (f' := f) hdo rfl (by omega) hlen hdrop

end Rustla
