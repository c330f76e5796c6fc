import Verif.Lemmas.Unwind
import Verif.Props.Labels
/-! # Section titles -/
namespace Rustla
open Spec

/-! ## Lines of one character -/

theorem plusChr_self (c : Char) (n : Nat) (cs : Caps) :
    ∃ more, (plusChr c).run (List.replicate (n + 1) c) cs = ([], cs) :: more := by
  unfold plusChr Re.plus
  rw [Re.run, Re.chr, List.replicate_succ]
  simp only [Re.run, beq_self_eq_true, if_true, List.flatMap_cons, List.flatMap_nil, List.append_nil]
  have := run_star_cls (· == c) (List.replicate n c) cs
  simp only [Re.run] at this
  rw [this]
  have e : (List.replicate n c).takeWhile (· == c) = List.replicate n c := by simp
  rw [e, List.length_replicate, List.range_succ, List.reverse_append]
  simp

theorem plusChr_other {c d : Char} (h : c ≠ d) (s : Str) (cs : Caps) : (plusChr d).run (c :: s) cs = [] :=
  run_seq_dead (run_chr_ne h _)

theorem alts_plusChr {c : Char} (n : Nat) (cs : Caps) : ∀ {L : List Char}, c ∈ L →
    ∃ more, (Re.alts (L.map plusChr)).run (List.replicate (n + 1) c) cs = ([], cs) :: more
  | [d], h => by
    obtain rfl := List.mem_singleton.mp h
    exact plusChr_self _ n cs
  | d :: e :: L, h => by
    show ∃ more, (Re.alt (plusChr d) (Re.alts ((e :: L).map plusChr))).run _ _ = _
    rw [Re.run]
    by_cases hd : c = d
    · subst hd
      obtain ⟨more, hm⟩ := plusChr_self c n cs
      rw [hm]
      exact ⟨_, rfl⟩
    · have hz : (plusChr d).run (List.replicate (n + 1) c) cs = [] := plusChr_other hd _ cs
      rw [hz, List.nil_append]
      exact alts_plusChr n cs (by
        rcases List.mem_cons.mp h with h | h
        · exact absurd h hd
        · exact h)

/-- The match of the pattern of section lines on a line of one character. -/
theorem line_captures {c : Char} (hc : c ∈ adornments) (n : Nat) :
    reLine.captures (List.replicate (n + 1) c) =
      some ⟨List.replicate (n + 1) c, [], [(.g1, List.replicate (n + 1) c)]⟩ := by
  obtain ⟨more, hm⟩ := alts_plusChr n [] hc
  have : ∃ more, reLine.run (List.replicate (n + 1) c) [] = ([], [(Grp.g1, List.replicate (n + 1) c)]) :: more := by
    rw [reLine_eq, Re.run, Re.run, hm]
    simp only [List.map_cons, List.flatMap_cons, List.length_nil, Nat.sub_zero, List.take_length]
    have e : ∀ cs : Caps, (Re.seq (Re.star true (Re.chr ' ')) Re.eos).run [] cs = [([], cs)] := fun _ => rfl
    rw [e]
    exact ⟨_, rfl⟩
  obtain ⟨more, hm⟩ := this
  unfold Re.captures
  rw [hm]
  simp

theorem line_isMatch {c : Char} (hc : c ∈ adornments) (n : Nat) : reLine.isMatch (List.replicate (n + 1) c) = true :=
  (Re.isMatch_iff _ _).mpr ⟨_, line_captures hc n⟩

theorem adornment_cls {c : Char} (hc : c ∈ adornments) : clsDigit c = false ∧ clsLowerRoman c = false ∧ clsUpperRoman c = false ∧
    clsLower c = false ∧ clsUpper c = false := by
  revert c; decide

/-- Lines of at least three equal characters match no other pattern. -/
theorem over_dead {c : Char} (hc : c ∈ adornments) (hne : c ≠ ':') (t : Str) :
    reBullet.run (c :: c :: c :: t) [] = [] ∧ reEnumerator.run (c :: c :: c :: t) [] = [] ∧
    reFieldMarker.run (c :: c :: c :: t) [] = [] ∧ reFootnote.run (c :: c :: c :: t) [] = [] ∧
    reCitation.run (c :: c :: c :: t) [] = [] ∧ reHyperlinkTarget.run (c :: c :: c :: t) [] = [] ∧
    reDirective.run (c :: c :: c :: t) [] = [] ∧ reComment.run (c :: c :: c :: t) [] = [] := by
  have hw := adornment_not_ws hc
  have hsp : c ≠ ' ' := by rintro rfl; revert hw; decide
  have space : ∀ (r : Re) (t : Str) (cs : Caps), (Re.seq (Re.plus true (.chr ' ')) r).run (c :: t) cs = [] :=
    fun r t cs => run_seq_dead (run_seq_dead (run_chr_ne hsp _))
  have tail : ∀ (t : Str) (cs : Caps), (Re.alt (Re.plus true (.chr ' ')) .eos).run (c :: t) cs = [] :=
    fun t cs => run_alt_dead (run_seq_dead (run_chr_ne hsp _)) rfl
  have dots : ∀ (g : Grp) (r : Re), (∀ cs, r.run (c :: t) cs = []) →
      (Re.seq (.cap g (.star true (.cls isWs))) (.seq (Re.lit (str! "..")) r)).run (c :: c :: c :: t) [] = [] := by
    intro g r hr
    rw [run_seq_indent hw]
    by_cases hd : c = '.'
    · subst hd
      show List.flatMap _ (List.flatMap _ [_]) = []
      simp only [List.flatMap_cons, List.flatMap_nil, List.append_nil, Re.lit, Re.chr, Re.run, beq_self_eq_true, if_true]
      exact hr _
    · exact run_seq_dead (run_seq_dead (run_chr_ne hd _))
  refine ⟨?_, ?_, ?_, dots _ _ (space _ _), dots _ _ (space _ _), dots _ _ (space _ _), dots _ _ (space _ _), dots _ _ (tail _)⟩
  · unfold reBullet
    rw [run_seq_indent hw]
    cases hb : clsBullet c with
    | false => exact run_seq_dead (run_cap_dead (by simp [Re.run, hb]))
    | true =>
      rw [Re.run, Re.run, Re.run, if_pos hb]
      simp only [List.map_cons, List.map_nil, List.flatMap_cons, List.flatMap_nil, List.append_nil]
      exact tail _ _
  · have body : ∀ (ga gb gc gd ge gf : Grp) (a : Char) (t : Str) (cs : Caps), a ≠ '#' →
        (Re.seq (Re.alts [.cap ga (Re.plus true (.cls clsDigit)), .cap gb (Re.plus true (.cls clsLowerRoman)),
          .cap gc (Re.plus true (.cls clsUpperRoman)), .cap gd (.cls clsLower), .cap ge (.cls clsUpper),
          .cap gf (.chr '#')]) (.chr a)).run (c :: c :: t) cs = [] := by
      intro ga gb gc gd ge gf a t cs ha
      obtain ⟨k1, k2, k3, k4, k5⟩ := adornment_cls hc
      by_cases hh : c = '#'
      · subst hh
        rw [Re.run, List.flatMap_eq_nil_iff]
        intro q hq
        simp only [Re.alts, Re.plus, Re.chr, Re.run, k1, k2, k3, k4, k5, Bool.false_eq_true, if_false, List.flatMap_nil, List.map_nil,
          List.nil_append, beq_self_eq_true, if_true, List.map_cons, List.mem_singleton] at hq
        subst hq
        exact run_chr_ne (fun e => ha e.symm) _
      · refine run_seq_dead ?_
        simp only [Re.alts, Re.plus, Re.chr, Re.run, k1, k2, k3, k4, k5, Bool.false_eq_true, if_false, List.flatMap_nil, List.map_nil,
          List.nil_append, beq_eq_false_iff_ne.mpr hh]
    unfold reEnumerator
    rw [run_seq_indent hw]
    refine run_seq_dead (run_alt_dead ?_ (run_alt_dead (body _ _ _ _ _ _ _ _ _ (by decide)) (body _ _ _ _ _ _ _ _ _ (by decide))))
    by_cases hh : c = '('
    · subst hh
      have e : ∀ (r : Re) (t : Str) (cs : Caps), (Re.seq (.chr '(') r).run ('(' :: t) cs = r.run t cs := by
        intro r t cs
        simp [Re.run, Re.chr]
      rw [e]
      exact body _ _ _ _ _ _ _ _ _ (by decide)
    · exact run_seq_dead (run_chr_ne hh _)
  · unfold reFieldMarker
    rw [run_seq_indent hw]
    exact run_seq_dead (run_chr_ne hne _)

/-- A line of at least three equal characters is a section line for the body of a document. -/
theorem over_transition (E : Env) {c : Char} (hc : c ∈ adornments) (hne : c ≠ ':') (n : Nat) :
    firstTransition (List.replicate (n + 3) c) (bodyTable E) =
      some (⟨List.replicate (n + 3) c, [], [(.g1, List.replicate (n + 3) c)]⟩, bodyLine E) ∧
    ∀ st : State, st.listing → firstTransition (List.replicate (n + 3) c) (listTable E st) = none := by
  have hl := line_captures hc (n + 2)
  have e : List.replicate (n + 3) c = c :: c :: c :: List.replicate n c := by simp [List.replicate_succ]
  have hw := adornment_not_ws hc
  have hblank : reBlankLine.captures (List.replicate (n + 3) c) = none :=
    blankLine_dead ((isBlank_false_iff _).mpr ⟨c, by simp, hw⟩)
  obtain ⟨d1, d2, d3, d4, d5, d6, d7, d8⟩ := over_dead hc hne (List.replicate n c)
  rw [← e] at d1 d2 d3 d4 d5 d6 d7 d8
  rw [← Re.captures_none_iff] at d1 d2 d3 d4 d5 d6 d7 d8
  exact ⟨by simp only [firstTransition, bodyTable, bodyRest, hblank, d1, d2, d3, d4, d5, d6, d7, d8, hl],
    fun st hst => hst.unmarked E ⟨d1, d2, d3⟩ ((isBlank_false_iff _).mpr ⟨c, by simp, hw⟩)⟩

theorem trimEnd_replicate {c : Char} (hw : isWs c = false) (n : Nat) : trimEnd (List.replicate n c) = List.replicate n c := by
  cases n with
  | zero => rfl
  | succ n =>
    unfold trimEnd
    rw [List.reverse_replicate, List.replicate_succ, List.dropWhile_cons, if_neg (by simp [hw]), ← List.replicate_succ,
      List.reverse_replicate]

/-! ## The title of a section -/

/-- What the lines of a title do in the body of a document and in a list. -/
theorem heading_transition (E : Env) {s : Sec} (hs : s.Ok) (rest : List Str) (h0 : E.baseIndent = 0) :
    ∃ l ls, s.heading ++ rest = l :: ls ∧
      (∀ st : State, st.listing → firstTransition l (listTable E st) = none) ∧
      ∃ m t, firstTransition l (bodyTable E) = some (m, t) ∧
        ∀ ps : PS, E.src.drop ps.cursor.relativeOffset = l :: ls → t m ps = openSection (trim s.title) s.style s.heading.length ps := by
  obtain ⟨htitle, hc, hlen, hover, _, _, _⟩ := hs
  obtain ⟨n, hn⟩ : ∃ n, s.len = n + 1 := ⟨s.len - 1, by omega⟩
  cases ho : s.over with
  | false =>
    refine ⟨s.title, List.replicate s.len s.char :: rest, by simp [Sec.heading, ho], fun st hst => hst.unmarked E (unmarked_text htitle 0) htitle.not_blank, ?_⟩
    obtain ⟨m, hm, hg⟩ := indented_transition E htitle 0
    refine ⟨m, _, hm, fun ps hps => ?_⟩
    have h1 : E.src[ps.cursor.relativeOffset]? = some s.title := by
      have := congrArg (·[0]?) hps
      simpa using this
    have h2 : E.src[ps.cursor.relativeOffset + 1]? = some (List.replicate s.len s.char) := by
      have := congrArg (·[1]?) hps
      simpa using this
    have h3 : reLine.isMatch (List.replicate s.len s.char) = true := by rw [hn]; exact line_isMatch hc n
    have h4 : List.replicate s.len s.char = s.char :: List.replicate n s.char := by rw [hn, List.replicate_succ]
    have hstyle : s.style = .Under s.char := by simp [Sec.style, ho]
    have hcount : s.heading.length = 2 := by simp [Sec.heading, ho]
    rw [hstyle, hcount]
    unfold bodyText textAt
    simp only [hg, List.length_replicate, h0, Nat.add_zero, bind, P.bind, P.offset, h2, h3, if_true, Nat.lt_irrefl, gt_iff_lt, if_false,
      currentLine, pure, P.lift]
    simp only [h4, h1, P.pure]
  | true =>
    obtain ⟨hcolon, h3le, hle⟩ := hover ho
    obtain ⟨n, hn⟩ : ∃ n, s.len = n + 3 := ⟨s.len - 3, by omega⟩
    obtain ⟨k1, k2⟩ := over_transition E hc hcolon n
    rw [← hn] at k1 k2
    refine ⟨List.replicate s.len s.char, s.title :: List.replicate s.len s.char :: rest, by simp [Sec.heading, ho], k2, _, _, k1,
      fun ps hps => ?_⟩
    have hw := adornment_not_ws hc
    have h2 : E.src[ps.cursor.relativeOffset + 1]? = some s.title := by
      have := congrArg (·[1]?) hps
      simpa using this
    have h3 : E.src[ps.cursor.relativeOffset + 2]? = some (List.replicate s.len s.char) := by
      have := congrArg (·[2]?) hps
      simpa using this
    have h4 : reLine.isMatch (List.replicate s.len s.char) = true := by rw [hn]; exact line_isMatch hc (n + 2)
    have h5 : List.replicate s.len s.char = s.char :: List.replicate (n + 2) s.char := by rw [hn, List.replicate_succ]
    have h6 : reText.isMatch s.title = true := by
      obtain ⟨c, t, e, hcw⟩ := htitle.toTextLine.cons
      obtain ⟨m, hm, _⟩ := indented_text (t := t) hcw 0
      rw [e]
      exact (Re.isMatch_iff _ _).mpr ⟨m, hm⟩
    have hhead : (List.replicate s.len s.char).head? = some s.char := by rw [h5]; rfl
    have hstyle : s.style = .OverAndUnder s.char := by simp [Sec.style, ho]
    have hcount : s.heading.length = 3 := by simp [Sec.heading, ho]
    rw [hstyle, hcount]
    have hg : Match.getD ⟨List.replicate s.len s.char, [], [(.g1, List.replicate s.len s.char)]⟩ .g1 = List.replicate s.len s.char := rfl
    have hcond : (trimEnd (List.replicate s.len s.char)).head? = some s.char ∧ s.len = (trimEnd (List.replicate s.len s.char)).length ∧
        (trimEnd s.title).length ≤ s.len := by
      rw [trimEnd_replicate hw, List.length_replicate]
      exact ⟨hhead, rfl, hle⟩
    unfold bodyLine
    simp only [hg, bind, P.bind, P.offset, P.required, pure, trimEnd_replicate hw, List.length_replicate]
    simp only [h5, P.lift]
    simp only [h2, P.pure, htitle.not_blank, Bool.and_false, Bool.false_and, Bool.false_eq_true, if_false, h6, if_true]
    unfold overlined
    simp only [bind, P.bind, P.offset, h3, P.required, pure, P.pure, h4, Bool.not_true, Bool.false_eq_true, if_false]
    rw [if_pos hcond]

/-! ## Closing and opening nodes -/

theorem heading_noBreak {s : Sec} (hs : s.Ok) {l : Str} {ls rest : List Str} (h : s.heading ++ rest = l :: ls) : reAplusColBreak.captures l = none := by
  obtain ⟨htitle, hc, hlen, hover, _, _, _⟩ := hs
  unfold Sec.heading at h
  cases ho : s.over with
  | false =>
    rw [ho] at h
    obtain rfl : s.title = l := by simp at h; exact h.1
    obtain ⟨c, t, e, hw⟩ := htitle.toTextLine.cons
    rw [e]; exact (noBreak_zero (st := .Body) hw (by simp)).1
  | true =>
    obtain ⟨n, hn⟩ : ∃ n, s.len = n + 1 := ⟨s.len - 1, by omega⟩
    rw [ho, hn] at h
    obtain rfl : List.replicate (n + 1) s.char = l := by simp at h; exact h.1
    rw [List.replicate_succ]; exact (noBreak_zero (st := .Body) (adornment_not_ws hc) (by simp)).1

/-- The open node is closed by a title of the given level. -/
def HeadShuts (lvl : Nat) (e : Frame) : Prop :=
  Deep 0 e ∨ (e.st = .Section ∧ ∃ t l st, e.data = .Section t l st ∧ lvl ≤ l)

theorem bodyIndent_item {e : Frame} {t : Nat} (h : e.data.bodyIndent = some t) (ht : 0 < t) :
    e.data.kind ≠ .Document ∧ asSection e.data = none := by
  obtain ⟨st, data, done, extra⟩ := e
  cases data <;> simp_all [NodeType.bodyIndent, NodeType.kind, asSection]

theorem heading_visible {s : Sec} (hs : s.Ok) {l : Str} {ls rest : List Str} (h : s.heading ++ rest = l :: ls) :
    ∃ x r, l = spaces 0 ++ x :: r ∧ isWs x = false := by
  obtain ⟨htitle, hc, hlen, hover, _, _, _⟩ := hs
  unfold Sec.heading at h
  cases ho : s.over with
  | false =>
    rw [ho] at h
    obtain rfl : s.title = l := by simp at h; exact h.1
    obtain ⟨c, t, e, hw⟩ := htitle.toTextLine.cons
    exact ⟨c, t, e, hw⟩
  | true =>
    obtain ⟨n, hn⟩ : ∃ n, s.len = n + 1 := ⟨s.len - 1, by omega⟩
    rw [ho, hn] at h
    obtain rfl : List.replicate (n + 1) s.char = l := by simp at h; exact h.1
    exact ⟨s.char, List.replicate n s.char, rfl, adornment_not_ws hc⟩

/-- A title closes an open node. -/
theorem AtL.shut_heading {labels : List Str} {E : Env} {S : SectionData} {os : List Frame} {s : LoopState} {e f : Frame} {fs : List Frame} {c : Nat} {sec : Sec} {rest : List Str}
    (h0 : E.baseIndent = 0) (hs : sec.Ok) (h : AtL labels E S os s (e :: f :: fs) (sec.heading ++ rest) c) (hc : c ≤ 9)
    (he : HeadShuts (S.levelOf sec.style) e) :
    LeadsL labels E S os s (f.add [e.shape] :: fs) (sec.heading ++ rest) (c + headCost [e]) := by
  obtain ⟨l, ls, e1, e2, m, t, e3, e4⟩ := heading_transition E hs rest h0
  rw [e1] at h ⊢
  have hopen := e4 s.ps h.here
  have hdata : s.ps.doc.sharedData = e.data := h.spine.data
  rcases he with (⟨h1 | h1, t5, h5, h6⟩ | ⟨_, h1, _⟩) | ⟨h1, t', lv, st, h2, h3⟩
  · obtain ⟨h2, h3⟩ := bodyIndent_item h5 h6
    obtain ⟨ht, hst, hnl⟩ := h1.table E
    have hcost : headCost [e] = 1 := by simp [headCost, hnl]
    rw [hcost]
    obtain ⟨d', k1, k2, k3⟩ := h.spine.parent
    obtain ⟨x, r, rfl, hx⟩ := heading_visible hs e1
    cases hat : reAttribution.captures (spaces 0 ++ x :: r) with
    | some m5 =>
      by_cases hbq : e.st = .BlockQuote
      · obtain ⟨act, hact⟩ := attribution_acts (E := E) hx hat s.ps
        obtain ⟨d5, r1, r2, r3⟩ := h.spine.leave
        have e5 := atIndent_low (k := 0 + E.baseIndent) h.spine h5 (by omega) act
        refine h.left hc (ts := (reBlankLine, emptyLine) :: (reAttribution, Rustla.attribution E) :: bodyRest E) (n := s.ps.sectionLevel)
          (by rw [hbq]; exact tableOf_quote E) hst (m := m5) (t := Rustla.attribution E) ?_ (by rw [hact, e5]; exact r1) r2 r3
        simp only [firstTransition, blankLine_dead (indented_not_blank (t := r) hx 0), hat]
      · obtain ⟨ts, ht, hts⟩ := ht
        refine h.left hc ht hst ((hts _ ⟨heading_noBreak hs e1, fun e => absurd e hbq⟩).trans e3)
          (n := (asSection d'.sharedData).getD s.ps.sectionLevel) ?_ k2 k3
        rw [hopen]
        unfold openSection
        simp only [bind, P.bind, P.doc, hdata, h2, if_false, h3, leaveForSection, P.parent, k1, P.level, P.setLevel, pure, P.pure]
    | none =>
    obtain ⟨ts, ht, hts⟩ := ht
    refine h.left hc ht hst ((hts _ ⟨heading_noBreak hs e1, fun _ => hat⟩).trans e3)
      (n := (asSection d'.sharedData).getD s.ps.sectionLevel) ?_ k2 k3
    rw [hopen]
    unfold openSection
    simp only [bind, P.bind, P.doc, hdata, h2, if_false, h3, leaveForSection, P.parent, k1, P.level, P.setLevel, pure, P.pure]
  · have hcost : headCost [e] = 1 := by simp [headCost, h1, State.listing]
    rw [hcost]
    obtain ⟨x, r, rfl, hx⟩ := heading_visible hs e1
    exact h.leave_quiz hc h1 h5 hx (by omega)
  · rw [headCost_list h1.listing]
    exact h.leave_unmarked hc h1.listing (e2 _ h1.listing)
  · have hcost : headCost [e] = 1 := by simp [headCost, h1, State.listing]
    rw [hcost]
    obtain ⟨d', k1, k2, k3⟩ := (show Spine (show PS from { s.ps with sectionLevel := lv }).doc.tree (e :: f :: fs ++ os) from h.spine).leave
    refine h.left hc (ts := bodyTable E) (by rw [h1]; rfl) (by rw [h1]; simp) e3 (n := lv) ?_ k2 k3
    rw [hopen]
    unfold openSection
    have hle : s.ps.doc.sections.levelOf sec.style ≤ lv := by rw [h.levels]; exact h3
    have hk : ¬ (NodeType.Section t' lv st).kind = .Document := by simp [NodeType.kind]
    simp only [bind, P.bind, P.doc, hdata, h2, hk, if_false, asSection, hle, if_true, P.setLevel]
    exact k1

/-- A title closes open nodes. -/
theorem AtL.unwind_heading {labels : List Str} {E : Env} {S : SectionData} {os : List Frame} {f : Frame} {fs : List Frame} {sec : Sec} {rest : List Str}
    (h0 : E.baseIndent = 0) (hs : sec.Ok) : ∀ (n : Nat) (ex : List Frame) {s : LoopState} {c : Nat}, ex.length = n →
      (∀ e ∈ ex, HeadShuts (S.levelOf sec.style) e) → AtL labels E S os s (ex ++ f :: fs) (sec.heading ++ rest) c → c + headCost ex ≤ 9 →
      LeadsL labels E S os s (f.add (shut [] ex) :: fs) (sec.heading ++ rest) (c + headCost ex) := by
  intro n
  induction n with
  | zero =>
    intro ex s c hn _ h _
    obtain rfl : ex = [] := List.length_eq_zero_iff.mp hn
    rw [shut, Frame.add_nil]; exact h.leads
  | succ n ih =>
    intro ex s c hn he h hc
    cases ex with
    | nil => simp at hn
    | cons e ex =>
      have hcost : headCost (e :: ex) = headCost [e] + headCost ex := by
        show List.countP _ ([e] ++ ex) = _
        rw [List.countP_append]; rfl
      rw [hcost] at hc ⊢
      cases ex with
      | nil =>
        have := AtL.shut_heading h0 hs h (by omega) (he e (by simp))
        have e2 : shut [] [e] = [e.shape] := by simp [shut, Frame.shape]
        rw [e2]; exact this
      | cons g es =>
        obtain ⟨s', k1, k2⟩ := AtL.shut_heading (fs := es ++ f :: fs) h0 hs h (by omega) (he e (by simp))
        have hsame : headCost (g.add [e.shape] :: es) = headCost (g :: es) := rfl
        have := ih (g.add [e.shape] :: es) (by simpa using hn) (fun x hx => by
          rcases List.mem_cons.mp hx with rfl | hx
          · exact he g (by simp)
          · exact he x (by simp [hx])) k2 (by rw [hsame]; omega)
        have e2 : shut [] (g.add [e.shape] :: es) = shut [] (e :: g :: es) := by
          rw [shut_add]; simp [shut, Frame.shape]
        rw [e2, hsame] at this
        have e3 : c + headCost [e] + headCost (g :: es) = c + (headCost [e] + headCost (g :: es)) := by omega
        rw [e3] at this
        exact k1.leads this

/-- The frame of a section. -/
abbrev secFrame (title : Str) (lvl : Nat) (style : SectionLineStyle) (ss : List Shape) (labels : List Str := []) : Frame :=
  ⟨.Section, .Section title lvl style, ss, labels⟩

/-- The node in which a title of the given level opens a section: the document or a section of a smaller level. -/
def Opens (lvl : Nat) (f : Frame) : Prop :=
  (f.st = .Body ∧ f.data = .Document) ∨ (f.st = .Section ∧ ∃ t l st, f.data = .Section t l st ∧ l < lvl)

theorem Opens.body {E : Env} {lvl : Nat} {f : Frame} (h : Opens lvl f) : f.Body E 0 := by
  obtain ⟨st, data, done, extra⟩ := f
  rcases h with ⟨h1, h2⟩ | ⟨h1, t, l, sty, h2, _⟩
  · simp only at h1 h2
    subst h1 h2
    exact ⟨.of rfl, .inl rfl, rfl, fun _ => takes_body rfl (by decide)⟩
  · simp only at h1 h2
    subst h1 h2
    exact ⟨.of rfl, .inr (.inl rfl), rfl, fun _ => takes_body rfl (by decide)⟩

theorem secFrame_body (E : Env) (title : Str) (lvl : Nat) (style : SectionLineStyle) (ss : List Shape) :
    (secFrame title lvl style ss).Body E 0 := ⟨.of rfl, .inr (.inl rfl), rfl, fun _ => takes_body rfl (by decide)⟩

/-- A title opens a section. -/
theorem AtL.open_section {labels : List Str} {E : Env} {S : SectionData} {os : List Frame} {s : LoopState} {f : Frame} {fs : List Frame} {c : Nat} {sec : Sec} {rest : List Str}
    {seen : List SectionLineStyle} (h0 : E.baseIndent = 0) (hs : sec.Ok) (h : AtL labels E S os s (f :: fs) (sec.heading ++ rest) c) (hc : c ≤ 9)
    (hS : SectionInv S seen) (hf : Opens (seen.idxOf sec.style + 1) f) :
    ∃ S', Leads E S' os s (secFrame (trim sec.title) (seen.idxOf sec.style + 1) sec.style [] labels :: f :: fs) rest 0 ∧
      SectionInv S' (if sec.style ∈ seen then seen else seen ++ [sec.style]) := by
  obtain ⟨l, ls, e1, e2, m, t, e3, e4⟩ := heading_transition E hs rest h0
  have hbody : f.Body E 0 := hf.body
  have hlen : (l :: ls).drop sec.heading.length = rest := by rw [← e1]; simp
  have hle : sec.heading.length ≤ (l :: ls).length := by rw [← e1]; simp
  have hpos : sec.heading.length ≠ 0 := by simp [Sec.heading]
  rw [e1] at h
  have hdata : s.ps.doc.sharedData = f.data := h.spine.data
  have hlv : s.ps.doc.sections.levelOf sec.style = seen.idxOf sec.style + 1 := by rw [h.levels]; exact sectionInv_level hS _
  have hnew : s.ps.doc.newSectionData (trim sec.title) sec.style = .Section (trim sec.title) (seen.idxOf sec.style + 1) sec.style := by
    unfold DocTree.newSectionData; rw [hlv]
  have hall : childIsAllowed f.data.kind .Section = .ok true := by
    rcases hf with ⟨_, hf⟩ | ⟨_, t, l, st, hf, _⟩ <;> rw [hf] <;> rfl
  -- the new section
  have hpush : ∃ d', P.pushFocus (s.ps.doc.newSectionData (trim sec.title) sec.style) s.ps = .ok () { s.ps with doc := d' } ∧
      Spine d'.tree (secFrame (trim sec.title) (seen.idxOf sec.style + 1) sec.style [] labels :: f :: fs ++ os) ∧
      SectionInv d'.sections (if sec.style ∈ seen then seen else seen ++ [sec.style]) ∧ d'.hyperref.accumulated = [] := by
    have hsp := h.spine
    generalize hz : s.ps.doc.tree = z at hsp
    cases hsp with
    | mk hl hab =>
      rename_i n cs path
      obtain ⟨cl, d', h1, h2, h3, h4⟩ := Rustla.pushFocus_ok (d := s.ps.doc) (cs := cs)
        (data := s.ps.doc.newSectionData (trim sec.title) sec.style) (by rw [hz]; exact hl.2.1)
        (by rw [hz, hnew]; show childIsAllowed n.data.kind _ = _; rw [hl.1]; exact hall)
      rw [hyperref_data _ _ (by rw [hnew]; simp [NodeType.kind]) (by rw [hnew]; simp [NodeType.kind]), hnew, hz] at h4
      refine ⟨d', by simp [P.pushFocus, P.orFail, h1], ?_, ?_, ?_⟩
      · rw [h4]
        exact .mk (looks_labelled .Section rfl (by simp [DocTree.hyperrefActions, DocTree.takeLabels, h.pending, ownLabels]) rfl) (.cons hl hab)
      · show SectionInv d'.notes.1 _
        rw [h3]
        exact sectionInv_add (by rw [h.levels]; exact hS) _ _
      · show d'.notes.2 = _
        rw [h3]
        simp only [hnew, DocTree.hyperrefActions, DocTree.takeLabels]
        exact congrArg Prod.snd (addTargets_notes ..)
  obtain ⟨d', k1, k2, k3, k4⟩ := hpush
  have k1' : ∀ n, P.pushFocus (s.ps.doc.newSectionData (trim sec.title) sec.style) { s.ps with sectionLevel := n } =
      .ok () { s.ps with doc := d', sectionLevel := n } := by
    intro n
    unfold P.pushFocus P.orFail at k1 ⊢
    simp only at k1 ⊢
    revert k1
    cases hd : s.ps.doc.pushDataAndFocus (s.ps.doc.newSectionData (trim sec.title) sec.style) with
    | error e => simp
    | ok x =>
      obtain ⟨b, d⟩ := x
      cases b with
      | false => simp
      | true => simp only [Out.ok.injEq, true_and]; intro h; simpa using congrArg PS.doc h
  have hres : t m s.ps = .ok (.push [.Section], some sec.heading.length)
      { s.ps with doc := d', sectionLevel := seen.idxOf sec.style + 1 } := by
    rw [e4 s.ps h.here]
    unfold openSection
    rcases hf with ⟨_, hf⟩ | ⟨_, t', lv, st, hf, hlt⟩
    · have hk : NodeType.Document.kind = .Document := rfl
      simp only [bind, P.bind, P.doc, hdata, hf, hk, if_true, k1, P.setLevel, pure, P.pure, hlv]
    · have hk : ¬ (NodeType.Section t' lv st).kind = .Document := by simp [NodeType.kind]
      have hn : ¬ (seen.idxOf sec.style + 1 ≤ lv) := by omega
      simp only [bind, P.bind, P.doc, hdata, hf, hk, if_false, asSection, hlv, hn, P.setLevel, k1', pure, P.pure]
  obtain ⟨ts, hts, hts'⟩ := hbody.table
  have hnq : f.st ≠ .BlockQuote := by
    rcases hf with ⟨h, _⟩ | ⟨h, _⟩ <;> rw [h] <;> simp
  have := step_moved (h.stands hc) hts hbody.notEnd ((hts' _ ⟨heading_noBreak hs e1, fun e => absurd e hnq⟩).trans e3) hres (stack := s.stack ++ [.Section]) rfl (k := sec.heading.length) rfl
    hpos hle
  rw [hlen] at this
  refine ⟨d'.sections, ⟨_, .step this, ⟨?_, k2, ?_, Nat.le_refl _, congrArg (Prod.mk _) k4⟩⟩, k3⟩
  · have e := drop_incr h.here sec.heading.length
    rw [e]; exact hlen
  · rw [h.stack_cons]; simp [stackFor]

end Rustla
