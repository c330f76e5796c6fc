import Verif.Lemmas.PlainLines
import Verif.Spec.Documents
/-! # Indented plain lines and items of bullet lists in the transition tables -/
namespace Rustla
open Spec

/-- The first line of an item of a bullet list. -/
def bulletLine (b : Char) (i : Nat) (l : Str) : Str := List.replicate i ' ' ++ b :: ' ' :: l

/-- The first paragraph of an item: its first line stands behind the bullet, the others are aligned with it. -/
def bulletLines (b : Char) (i : Nat) : List Str → List Str
  | [] => []
  | l :: ls => bulletLine b i l :: ls.map (indentLine (i + 2))

theorem tag_bullet (b : Char) (i : Nat) (g : List Str) : (Tag.bullet b).lines i g = bulletLines b i g := by cases g <;> rfl

/-- `i` spaces. -/
abbrev spaces (i : Nat) : Str := List.replicate i ' '

/-- What a pattern matches does not depend on what has been captured before. -/
theorem Re.run_caps (r : Re) : ∀ (s : Str) (cs cs' : Caps), (r.run s cs).map (·.1) = (r.run s cs').map (·.1) := by
  have flat : ∀ {f g : Str × Caps → List (Str × Caps)} {l l' : List (Str × Caps)}, l.map (·.1) = l'.map (·.1) →
      (∀ s cs cs', (f (s, cs)).map (·.1) = (g (s, cs')).map (·.1)) →
      (l.flatMap f).map (·.1) = (l'.flatMap g).map (·.1) := by
    intro f g l
    induction l with
    | nil =>
      intro l' h _
      cases l' with
      | nil => rfl
      | cons => simp at h
    | cons q l ih =>
      intro l' h hf
      cases l' with
      | nil => simp at h
      | cons q' l' =>
        simp only [List.map_cons, List.cons.injEq] at h
        obtain ⟨s, cs⟩ := q
        obtain ⟨s', cs'⟩ := q'
        obtain ⟨rfl, h⟩ := h
        simp only [List.flatMap_cons, List.map_append, ih h hf, hf s cs cs']
  have star : ∀ (greedy : Bool) (f : Str → Caps → List (Str × Caps)),
      (∀ s cs cs', (f s cs).map (·.1) = (f s cs').map (·.1)) →
      ∀ n s cs cs', (starRun greedy f n s cs).map (·.1) = (starRun greedy f n s cs').map (·.1) := by
    intro greedy f hf n
    induction n with
    | zero => intro s cs cs'; rfl
    | succ n ih =>
      intro s cs cs'
      have : ((f s cs).flatMap fun r => if r.1.length < s.length then starRun greedy f n r.1 r.2 else []).map (·.1) =
          ((f s cs').flatMap fun r => if r.1.length < s.length then starRun greedy f n r.1 r.2 else []).map (·.1) := by
        refine flat (hf s cs cs') fun t c c' => ?_
        simp only
        split
        · exact ih t c c'
        · rfl
      cases greedy <;> simp [starRun] <;> simpa using this
  induction r with
  | eps => intro s cs cs'; rfl
  | cls p =>
    intro s cs cs'
    cases s with
    | nil => rfl
    | cons c s => simp only [Re.run]; split <;> rfl
  | seq a b iha ihb => intro s cs cs'; exact flat (iha s cs cs') fun t c c' => ihb t c c'
  | alt a b iha ihb => intro s cs cs'; simp only [Re.run, List.map_append, iha s cs cs', ihb s cs cs']
  | star g r ih => intro s cs cs'; exact star g _ ih _ s cs cs'
  | cap g r ih =>
    intro s cs cs'
    have := ih s cs cs'
    simpa [Re.run, Function.comp_def] using this
  | eos => intro s cs cs'; simp only [Re.run]; split <;> rfl

theorem run_nil_caps {r : Re} {s : Str} {cs : Caps} (h : r.run s cs = []) (cs' : Caps) : r.run s cs' = [] := by
  have := r.run_caps s cs cs'
  rw [h] at this
  simpa using this.symm

/-- Matching behind an indentation made of spaces, for a pattern that does not start with a space. -/
theorem run_seq_spaces {g : Grp} {r : Re} (hr : ∀ s cs, r.run (' ' :: s) cs = []) {c : Char} {t : Str}
    (h : isWs c = false) (i : Nat) (cs : Caps) :
    (Re.seq (.cap g (.star true (.cls isWs))) r).run (spaces i ++ c :: t) cs = r.run (c :: t) ((g, spaces i) :: cs) := by
  have htw : (spaces i ++ c :: t).takeWhile isWs = spaces i := by
    induction i with
    | zero => simp [h]
    | succ i ih => rw [spaces, List.replicate_succ, List.cons_append, List.takeWhile_cons, ih]; rw [if_pos (by decide)]
  rw [Re.run, Re.run, run_star_cls, htw]
  simp only [List.length_replicate, List.map_map, List.range_succ, List.reverse_append, List.map_append, List.flatMap_append,
    List.reverse_singleton, List.map_singleton, List.flatMap_singleton]
  have e1 : (spaces i ++ c :: t).drop i = c :: t := by
    rw [List.drop_append_of_le_length (by simp)]; simp
  have e2 : (spaces i ++ c :: t).take ((spaces i ++ c :: t).length - (c :: t).length) = spaces i := by
    rw [List.length_append, Nat.add_sub_cancel, List.take_append_of_le_length (Nat.le_refl _), List.take_length]
  have e3 : ∀ l : List Nat, (∀ k ∈ l, k < i) → (l.map ((fun q : Str × Caps => (q.1,
      (g, (spaces i ++ c :: t).take ((spaces i ++ c :: t).length - q.1.length)) :: q.2)) ∘
        fun k => ((spaces i ++ c :: t).drop k, cs))).flatMap (fun q => r.run q.1 q.2) = [] := by
    intro l hl
    rw [List.flatMap_eq_nil_iff]
    intro q hq
    obtain ⟨k, hk, rfl⟩ := List.mem_map.mp hq
    have hki := hl k hk
    have : (spaces i ++ c :: t).drop k = ' ' :: (spaces (i - k - 1) ++ c :: t) := by
      rw [List.drop_append_of_le_length (by simp; omega)]
      have : (spaces i).drop k = ' ' :: spaces (i - k - 1) := by
        rw [List.drop_replicate]
        have : i - k = (i - k - 1) + 1 := by omega
        rw [this, List.replicate_succ]
        simp
      rw [this]; rfl
    simp only [Function.comp_apply, this]
    exact hr _ _
  rw [e1, e2, e3 _ (by intro k hk; simpa using hk)]
  simp

/-- A pattern that matches no unindented line of some kind matches no indented one. -/
theorem indented_dead {g : Grp} {r : Re} (hr : ∀ s cs, r.run (' ' :: s) cs = []) {c : Char} {t : Str} (h : isWs c = false)
    (hd : (Re.seq (.cap g (.star true (.cls isWs))) r).captures (c :: t) = none) (i : Nat) :
    (Re.seq (.cap g (.star true (.cls isWs))) r).captures (spaces i ++ c :: t) = none := by
  rw [Re.captures_none_iff] at hd ⊢
  rw [run_seq_indent h] at hd
  rw [run_seq_spaces hr h]
  exact run_nil_caps hd _


/-! ## Indented plain lines -/

theorem indentOf_indented {c : Char} {t : Str} (h : isWs c = false) (i : Nat) : indentOf (spaces i ++ c :: t) = i := by
  induction i with
  | zero => simp [indentOf, h]
  | succ i ih =>
    rw [spaces, List.replicate_succ, List.cons_append]
    unfold indentOf at ih ⊢
    rw [List.takeWhile_cons, if_pos (by decide)]
    simp only [List.length_cons]
    rw [ih]

theorem indented_not_blank {c : Char} {t : Str} (h : isWs c = false) (i : Nat) : isBlank (spaces i ++ c :: t) = false :=
  (isBlank_false_iff _).mpr ⟨c, by simp, h⟩

theorem blankLine_dead {l : Str} (h : isBlank l = false) : reBlankLine.captures l = none := by
  rw [Re.captures_none_iff, List.eq_nil_iff_forall_not_mem]
  intro q hq
  unfold reBlankLine at hq
  obtain ⟨q1, h1, h2⟩ := List.mem_flatMap.mp hq
  obtain ⟨m, e, hm⟩ := (Consumes.star (P := fun c => isWs c = true) (.cls fun c hc => hc)) _ _ _ h1
  have : q1.1 = [] := by
    simp only [Re.run] at h2
    split at h2
    · rename_i h; simpa using h
    · cases h2
  rw [this, List.append_nil] at e
  rw [(isBlank_iff l).mpr (e ▸ hm)] at h
  cases h

theorem spaces_not_line {i : Nat} {t : Str} : reLine.isMatch (' ' :: spaces i ++ t) = false := by
  cases e : reLine.isMatch (' ' :: spaces i ++ t) with
  | false => rfl
  | true =>
    obtain ⟨a, n, m, ha, h⟩ := line_ruled e
    rw [List.replicate_succ] at h
    simp only [List.cons_append, List.cons.injEq] at h
    rw [← h.1] at ha
    revert ha; decide

theorem Spec.TextLine.indented_not_line {l : Str} (h : TextLine l) (i : Nat) : reLine.isMatch (indentLine i l) = false := by
  cases i with
  | zero => exact h.not_line
  | succ i => exact spaces_not_line

theorem indented_text {c : Char} {t : Str} (h : isWs c = false) (i : Nat) :
    ∃ m, reText.captures (spaces i ++ c :: t) = some m ∧ m.getD .g1 = spaces i := by
  have e : reText.run (spaces i ++ c :: t) [] = [(t, [(Grp.g1, spaces i)])] := by
    unfold reText
    rw [run_seq_spaces (by intro s cs; rfl) h]
    simp [Re.run, nonWs, h]
  unfold Re.captures
  rw [e]
  exact ⟨_, rfl, by simp [Match.getD, Match.get]⟩

theorem chr_space {a : Char} (h : a ≠ ' ') (r : Re) (s : Str) (cs : Caps) : (Re.seq (.chr a) r).run (' ' :: s) cs = [] :=
  run_seq_dead (run_chr_ne (fun e => h e.symm) _)

theorem dots_space (r : Re) (s : Str) (cs : Caps) : (Re.seq (Re.lit (str! "..")) r).run (' ' :: s) cs = [] :=
  run_seq_dead (run_seq_dead (run_chr_ne (by decide) _))

theorem bullet_space (r : Re) (s : Str) (cs : Caps) : (Re.seq (.cap .g2 (.cls clsBullet)) r).run (' ' :: s) cs = [] :=
  run_seq_dead (run_cap_dead (by simp [Re.run, clsBullet]))

theorem plain_no_bullet {l : Str} (h : FirstLine l) (i : Nat) : reBullet.captures (indentLine i l) = none := by
  obtain ⟨c, t, rfl, h2⟩ := h.cons
  exact indented_dead (bullet_space _) h2 (bullet_dead h2 h.notBulleted) i

/-- An indented plain line matches none of the patterns of the body of a document but the one for text. -/
theorem indented_patterns {l : Str} (h : FirstLine l) (i : Nat) (t1 t2 t3 t4 t5 t6 t7 t8 t9 t10 t11 : Transition) :
    ∃ m, firstTransition (indentLine i l) [(reBlankLine, t1), (reBullet, t2), (reEnumerator, t3), (reFieldMarker, t4), (reFootnote, t5),
      (reCitation, t6), (reHyperlinkTarget, t7), (reDirective, t8), (reComment, t9), (reLine, t10), (reText, t11)] = some (m, t11) ∧
      m.getD .g1 = spaces i := by
  have hline : reLine.captures (indentLine i l) = none := by
    have := h.indented_not_line i
    cases hc : reLine.captures (indentLine i l) with
    | none => rfl
    | some m => rw [(Re.isMatch_iff _ _).mpr ⟨m, hc⟩] at this; cases this
  have hbul := plain_no_bullet h i
  obtain ⟨c, t, rfl, h2⟩ := h.cons
  obtain ⟨m, hm, hg⟩ := indented_text (t := t) h2 i
  refine ⟨m, ?_, hg⟩
  unfold indentLine at hline hbul ⊢
  have henum : reEnumerator.captures (spaces i ++ c :: t) = none := by
    refine indented_dead ?_ h2 (enumerator_dead h2 h.notEnumerated) i
    intro s cs
    refine run_seq_dead (run_alt_dead (chr_space (by decide) _ _ _) (run_alt_dead (run_seq_dead ?_) (run_seq_dead ?_))) <;>
    · simp only [Re.alts]
      repeat (refine run_alt_dead (run_cap_dead ?_) ?_; · first | rfl | exact run_seq_dead rfl)
      exact run_cap_dead (run_chr_ne (by decide) _)
  simp only [firstTransition, blankLine_dead (indented_not_blank h2 i), hbul, henum,
    show reFieldMarker.captures (spaces i ++ c :: t) = none from indented_dead (chr_space (by decide) _) h2 (field_dead h2 h.notField) i,
    show reFootnote.captures (spaces i ++ c :: t) = none from indented_dead (dots_space _) h2 (dots_dead gap_seq h2 h.notExplicit) i,
    show reCitation.captures (spaces i ++ c :: t) = none from indented_dead (dots_space _) h2 (dots_dead gap_seq h2 h.notExplicit) i,
    show reHyperlinkTarget.captures (spaces i ++ c :: t) = none from indented_dead (dots_space _) h2 (dots_dead gap_seq h2 h.notExplicit) i,
    show reDirective.captures (spaces i ++ c :: t) = none from indented_dead (dots_space _) h2 (dots_dead gap_seq h2 h.notExplicit) i,
    show reComment.captures (spaces i ++ c :: t) = none from indented_dead (dots_space _) h2 (dots_dead gap_alt h2 h.notExplicit) i, hline, hm]

/-- An indented plain line is text for the body of a document. -/
theorem indented_transition (E : Env) {l : Str} (h : FirstLine l) (i : Nat) :
    ∃ m, firstTransition (indentLine i l) (bodyTable E) = some (m, bodyText E) ∧ m.getD .g1 = spaces i :=
  indented_patterns h i ..

/-! ## Items of bullet lists -/

/-- The match of the bullet pattern on the first line of an item. -/
def bulletMatch (b : Char) (i : Nat) (l : Str) : Match := ⟨spaces i ++ [b, ' '], l, [(.g2, [b]), (.g1, spaces i)]⟩

theorem bullet_captures {b : Char} {l : Str} (hb : clsBullet b = true) (hw : isWs b = false) (i : Nat) (h : TextLine l) :
    reBullet.captures (bulletLine b i l) = some (bulletMatch b i l) := by
  obtain ⟨c, t, rfl, h2⟩ := h.cons
  have hc : (c == ' ') = false := by
    cases e : (c == ' ') with
    | false => rfl
    | true => rw [beq_iff_eq] at e; subst e; revert h2; decide
  have hsp : (Re.plus true (.chr ' ')).run (' ' :: c :: t) ((.g2, [b]) :: (.g1, spaces i) :: []) =
      [(c :: t, [(.g2, [b]), (.g1, spaces i)])] := by
    unfold Re.plus
    rw [Re.run, Re.chr]
    simp only [Re.run, beq_self_eq_true, if_true, List.flatMap_cons, List.flatMap_nil, List.append_nil]
    exact run_star_cls_none (by intro x hx; cases hx; exact hc) _
  have e : reBullet.run (bulletLine b i (c :: t)) [] = [(c :: t, [(.g2, [b]), (.g1, spaces i)])] := by
    unfold reBullet bulletLine
    rw [run_seq_spaces (bullet_space _) hw]
    simp only [Re.run, hb, if_true, List.map_cons, List.map_nil, List.flatMap_cons, List.flatMap_nil, List.append_nil]
    have e1 : (b :: ' ' :: c :: t).take ((b :: ' ' :: c :: t).length - (' ' :: c :: t).length) = [b] := by
      have : (b :: ' ' :: c :: t).length - (' ' :: c :: t).length = 1 := by simp
      rw [this]; rfl
    rw [e1, hsp]
    rfl
  unfold Re.captures
  rw [e]
  simp only [bulletMatch, Option.some.injEq, Match.mk.injEq, and_true]
  unfold bulletLine
  have e1 : (spaces i ++ b :: ' ' :: c :: t) = (spaces i ++ [b, ' ']) ++ c :: t := by simp
  rw [e1, List.length_append (bs := c :: t), Nat.add_sub_cancel, List.take_append_of_le_length (Nat.le_refl _), List.take_length]

theorem bulletLine_not_blank {b : Char} (hw : isWs b = false) (i : Nat) (l : Str) : isBlank (bulletLine b i l) = false :=
  (isBlank_false_iff _).mpr ⟨b, by simp [bulletLine], hw⟩

theorem bulletLine_indent {b : Char} (hw : isWs b = false) (i : Nat) (l : Str) : indentOf (bulletLine b i l) = i :=
  indentOf_indented hw i

theorem bulletLine_not_line {b : Char} {l : Str} (i : Nat) (h : TextLine l) : reLine.isMatch (bulletLine b i l) = false := by
  cases i with
  | succ i => exact spaces_not_line
  | zero =>
    cases e : reLine.isMatch (bulletLine b 0 l) with
    | false => rfl
    | true =>
      obtain ⟨c, t, rfl, h2⟩ := h.cons
      obtain ⟨a, n, m, ha, e⟩ := line_ruled e
      have e : b :: ' ' :: c :: t = List.replicate (n + 1) a ++ List.replicate m ' ' := e
      rw [List.replicate_succ, List.cons_append] at e
      have e := (List.cons.inj e).2
      have hc : c ∈ List.replicate n a ++ List.replicate m ' ' := by rw [← e]; simp
      cases n with
      | zero =>
        simp only [List.replicate_zero, List.nil_append, List.mem_replicate] at hc
        rw [hc.2] at h2; revert h2; decide
      | succ n =>
        rw [List.replicate_succ, List.cons_append] at e
        rw [← (List.cons.inj e).1] at ha
        revert ha; decide

theorem bullet_transition (E : Env) {b : Char} {l : Str} (hb : clsBullet b = true) (hw : isWs b = false) (i : Nat)
    (h : TextLine l) : firstTransition (bulletLine b i l) (bodyTable E) = some (bulletMatch b i l, bodyBullet E) := by
  simp only [firstTransition, bodyTable, bodyRest, blankLine_dead (bulletLine_not_blank hw i l), bullet_captures hb hw i h]

theorem item_transition (E : Env) {b : Char} {l : Str} (hb : clsBullet b = true) (hw : isWs b = false) (i : Nat)
    (h : TextLine l) : firstTransition (bulletLine b i l) [(reBlankLine, emptyLine), (reBullet, listBullet E)] =
      some (bulletMatch b i l, listBullet E) := by
  simp only [firstTransition, blankLine_dead (bulletLine_not_blank hw i l), bullet_captures hb hw i h]

theorem item_no_transition (E : Env) {l : Str} (i : Nat) (h : FirstLine l) :
    firstTransition (indentLine i l) [(reBlankLine, emptyLine), (reBullet, listBullet E)] = none := by
  have hb := plain_no_bullet h i
  obtain ⟨c, t, rfl, h2⟩ := h.cons
  simp only [firstTransition, show reBlankLine.captures (indentLine i (c :: t)) = none from
    blankLine_dead (indented_not_blank h2 i), hb]

end Rustla
