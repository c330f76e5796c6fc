import Verif.Lemmas.Frames
/-! # Items of bullet lists -/
namespace Rustla
open Spec

theorem readIndentedLoop_plain {ls rest : List Str} {k : Nat} (hk : 0 < k) (hls : ∀ l ∈ ls, TextLine l) (hr : Ends k rest) :
    ∀ prev, (readIndentedLoop true (some k) false (ls.map (indentLine k) ++ rest) prev (some k)).lines = ls.map (indentLine k) ∧
      (readIndentedLoop true (some k) false (ls.map (indentLine k) ++ rest) prev (some k)).minimal = some k := by
  induction ls with
  | nil =>
    intro prev
    cases rest with
    | nil => exact ⟨rfl, rfl⟩
    | cons l rest =>
      rcases hr l rfl with h | ⟨⟨j, c, t, hj, rfl, hc⟩, _⟩
      · simp [readIndentedLoop, h]
      · have e : (decide (j < 1) || breakWhenNotAligned (some k) false j) = true := by
          simp only [breakWhenNotAligned, Bool.false_eq_true, if_false, Bool.or_eq_true, decide_eq_true_eq]
          exact .inr hj
        simp only [List.map_nil, List.nil_append, readIndentedLoop, indented_not_blank hc j, Bool.not_false, Bool.true_and,
          indentOf_indented hc j, e, if_true, and_self]
  | cons l ls ih =>
    intro prev
    obtain ⟨c, t, rfl, hc⟩ := (hls l (by simp)).cons
    obtain ⟨h1, h2⟩ := ih (fun x hx => hls x (by simp [hx])) (some (indentLine k (c :: t)))
    have e : (decide (k < 1) || breakWhenNotAligned (some k) false k) = false := by
      simp only [breakWhenNotAligned, Bool.false_eq_true, if_false, Bool.or_eq_false_iff, decide_eq_false_iff_not]
      omega
    unfold indentLine at h1 h2 ⊢
    simp only [List.map_cons, List.cons_append, readIndentedLoop, indented_not_blank hc k, Bool.not_false, Bool.true_and,
      indentOf_indented hc k, e, Bool.false_eq_true, if_false, Bool.false_and, updateMinimal]
    exact ⟨by rw [h1], h2⟩

theorem drop_indentLine (k : Nat) (l : Str) : (indentLine k l).drop k = l := by
  unfold indentLine
  rw [List.drop_append_of_le_length (by simp)]; simp

theorem drop_bulletLine (b : Char) (i : Nat) (l : Str) : (bulletLine b i l).drop (i + 2) = l := by
  have : bulletLine b i l = (spaces i ++ [b, ' ']) ++ l := by simp [bulletLine]
  rw [this, List.drop_append_of_le_length (by simp)]
  have : (spaces i ++ [b, ' ']).length = i + 2 := by simp
  rw [← this, List.drop_length, List.nil_append]

/-- The block of the first paragraph of an item. -/
theorem readIndented_item {src : List Str} {off i : Nat} {b : Char} {l : Str} {ls rest : List Str}
    (h : src.drop off = bulletLine b i l :: ls.map (indentLine (i + 2)) ++ rest) (hls : ∀ x ∈ ls, TextLine x)
    (hr : Ends (i + 2) rest) :
    ∃ bf, readIndentedBlock src off true true (some (i + 2)) (some (i + 2)) false =
      .ok (.ok (l :: ls) (i + 2) (ls.length + 1) bf) := by
  have hne : src.isEmpty = false := by
    cases src with
    | nil => simp at h
    | cons => rfl
  have hlen : ¬ src.length < off := by
    intro hlt
    rw [List.drop_eq_nil_of_le (by omega)] at h
    simp at h
  obtain ⟨h1, h2⟩ := readIndentedLoop_plain (by omega) hls hr (some (bulletLine b i l))
  have hstrip : stripBlock (some (i + 2)) (i + 2) (bulletLine b i l :: ls.map (indentLine (i + 2))) = l :: ls := by
    simp only [stripBlock, drop_bulletLine, List.map_map]
    congr 1
    conv => rhs; rw [← List.map_id ls]
    refine List.map_congr_left fun x _ => ?_
    simp [drop_indentLine]
  rw [List.cons_append] at h
  simp only [readIndentedBlock, hne, Bool.false_eq_true, if_false, hlen, Option.or, h, h1, h2, if_true, hstrip]
  exact ⟨_, rfl⟩

/-- The nested parser on the first paragraph of an item. -/
theorem nested_paragraph {n : Nat} {g : List Str} {ps : List Piece} {d : DocTree} {base line level : Nat} {f : Frame} {fs : List Frame}
    (hn : g.length < n) (hp : Para g ps) (h : Spine d.tree (f :: fs))
    (hi : f.data.bodyIndent = some base) (ha : childIsAllowed f.data.kind .Paragraph = .ok true)
    (hq : d.hyperref.accumulated = []) :
    ∃ d', parserOf n g d base line .ListItem level = .ok (.eof d' [.ListItem]) ∧
      Spine d'.tree (f.add [paragraphShape base ps] :: fs) ∧ d'.notes = d.notes := by
  obtain ⟨n, rfl⟩ : ∃ m, n = m + 1 := ⟨n - 1, by omega⟩
  let E : Env := { src := g, baseIndent := base, nested := parserOf n }
  have hgr : Groups g [g] := by
    have := Groups.group [] g [] [] (by simp) hp.notEmpty (fun l hl => (hp.lines.all l hl).not_blank) (by simp) (.blank [] (by simp))
    simpa using this
  generalize hz : d.tree = z at h
  cases h with
  | mk hl hab =>
    rename_i node cs path
    obtain ⟨k, s', ns, k1, k2, k3, k4, k5, k6, k7⟩ := groups_run (E := E) (st := .ListItem) rfl (by simp) (base := [.ListItem]) rfl
      hgr (fun _ => ps) (by intro x hx; simp at hx; subst hx; exact ⟨⟨hp.lines.all, readsAsText hp.lines E⟩, hp.pieces, hp.text⟩) hp.notEmpty (LoopState.init d line .ListItem level) cs rfl (Nat.zero_lt_succ _) rfl
      (by show d.tree.node.data.bodyIndent = _; rw [hz, hl.1]; exact hi)
      (by show childIsAllowed d.tree.node.data.kind _ = _; rw [hz, hl.1]; exact ha)
      (by show d.tree.node.children = _; rw [hz]; exact hl.2.1) hq
    refine ⟨s'.ps.doc, ?_, ?_, k5⟩
    · show parseLoop (machineOf E) (n + 1) _ = _
      have e : n + 1 = (n - k + 1) + k := by omega
      rw [e, k2]
      have hs : parseStep (machineOf E) s' = .ok (.done (.eof s'.ps.doc [.ListItem])) := by
        unfold parseStep
        rw [if_neg (by rintro ⟨_, h⟩; omega), k3]
        rfl
      simp [parseLoop, hs, bind, Except.bind, pure, Except.pure]
    · rw [k6]
      show Spine ⟨d.tree.node.setChildren (some (cs ++ ns)), d.tree.path⟩ _
      rw [hz]
      exact .mk (hl.add (by simpa using k7)) hab

/-- The frame of an item with the given children. -/
abbrev itemFrame (b : Char) (i : Nat) (ss : List Shape) : Frame := ⟨.ListItem, .BulletListItem b i (i + 2), ss, []⟩

/-- The frame of a list with the given items. -/
abbrev listFrame (b : Char) (i : Nat) (ss : List Shape) : Frame := ⟨.BulletList, .BulletList b i (i + 2), ss, []⟩

theorem itemFrame_body (E : Env) (b : Char) (i : Nat) (ss : List Shape) : (itemFrame b i ss).Body E (i + 2) :=
  ⟨.of rfl, .inr (.inr (.inl rfl)), rfl, fun _ => takes_body rfl (by decide)⟩

theorem utf8_spaces {b : Char} (hb : b ∈ ['*', '+', '-']) : ∀ i : Nat, utf8Len (spaces i ++ [b, ' ']) = i + 2
  | 0 => by
    simp only [List.mem_cons, List.not_mem_nil, or_false] at hb
    rcases hb with rfl | rfl | rfl <;> rfl
  | i + 1 => by
    have e : utf8Len (spaces (i + 1) ++ [b, ' ']) = 1 + utf8Len (spaces i ++ [b, ' ']) := rfl
    rw [e, utf8_spaces hb i]; omega

/-- A new item of the list in focus. -/
theorem AtL.item {E : Env} {S : SectionData} {os : List Frame} {s : LoopState} {fs : List Frame} {g rest : List Str} {ps : List Piece}
    {c n : Nat} {b : Char} {i j : Nat} {ss : List Shape} (hij : i + E.baseIndent = j) (hN : E.nested = parserOf n) (hn : g.length < n)
    (h : At E S os s (listFrame b j ss :: fs) (bulletLines b i g ++ rest) c)
    (hc : c ≤ 9) (hb : b ∈ ['*', '+', '-']) (hp : Para g ps) (hr : Ends (i + 2) rest) :
    Leads E S os s (itemFrame b j [paragraphShape (j + 2) ps] :: listFrame b j ss :: fs) rest 0 := by
  cases g with
  | nil => exact absurd rfl hp.notEmpty
  | cons l ls =>
    have hcls : clsBullet b = true ∧ isWs b = false := by
      simp only [List.mem_cons, List.not_mem_nil, or_false] at hb
      rcases hb with rfl | rfl | rfl <;> decide
    have hall : childIsAllowed (listFrame b j ss).data.kind (NodeType.BulletListItem b j (j + 2)).kind = .ok true := by
      show childIsAllowed .BulletList .BulletListItem = _; rfl
    obtain ⟨d1, h1, h2, h3⟩ := h.spine.push (data := .BulletListItem b j (j + 2)) .ListItem hall simple_item rfl rfl h.calm
    obtain ⟨d2, g1, g2, g3⟩ := nested_paragraph (n := n) (g := l :: ls) (d := d1) (base := j + 2)
      (line := s.ps.cursor.sumTotal) (level := s.ps.sectionLevel) hn hp h2 rfl rfl
      ((congrArg Prod.snd h3).trans h.calm)
    have hsrc : E.src.drop s.ps.cursor.relativeOffset = bulletLine b i l :: ls.map (indentLine (i + 2)) ++ rest := h.here
    obtain ⟨bf, hread⟩ := readIndented_item hsrc hp.lines.2 hr
    have hres : listBullet E (bulletMatch b i l) s.ps = .ok (.push [.ListItem], some (ls.length + 1)) { s.ps with doc := d2 } := by
      have hdata := h.spine.data
      unfold listBullet
      have e1 : (bulletMatch b i l).getD .g2 = [b] := rfl
      have e2 : (bulletMatch b i l).getD .g1 = spaces i := rfl
      have e3 : utf8Len (bulletMatch b i l).whole + E.baseIndent = j + 2 := by
        have : utf8Len (bulletMatch b i l).whole = i + 2 := utf8_spaces hb i
        omega
      have hs0 : ¬ (j + 2 < E.baseIndent) := by omega
      have hs1 : j + 2 - E.baseIndent = i + 2 := by omega
      simp only [e1, e2, e3, bind, P.bind, P.lift, P.doc, DocTree.sharedData, hdata, asBulletList, hij,
        List.length_replicate, and_self, if_true, h1, parseFirstNodeBlock, Option.getD_none, checkedSub, hs0, if_false,
        hs1, P.indentedBlock, hread, P.nest, hN, g1, pure, P.pure]
    have hst := h.stands (l := bulletLine b i l) (ls := ls.map (indentLine (i + 2)) ++ rest) hc
    have hstack := h.stack_cons (l := bulletLine b i l) (ls := ls.map (indentLine (i + 2)) ++ rest)
    have := step_moved hst (ts := [(reBlankLine, emptyLine), (reBullet, listBullet E)]) rfl (by simp)
      (item_transition E hcls.1 hcls.2 i hp.lines.1.toTextLine) hres (stack := s.stack ++ [.ListItem]) rfl (k := ls.length + 1) rfl
      (by omega) (by simp)
    have hdrop : (bulletLine b i l :: (ls.map (indentLine (i + 2)) ++ rest)).drop (ls.length + 1) = rest := by simp
    rw [hdrop] at this
    refine ⟨_, .step this, ⟨?_, g2, ?_, Nat.le_refl _, (g3.trans h3).trans h.secs⟩⟩
    · have e := drop_incr h.here (ls.length + 1)
      rw [e]; exact hdrop
    · rw [hstack]; simp [stackFor]

end Rustla
