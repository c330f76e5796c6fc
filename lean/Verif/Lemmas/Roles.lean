import Verif.Lemmas.Calm
/-! # Interpreted text with a role -/
namespace Rustla
open Spec

theorem role_marker {g g' : Grp} {name e : Str} (hne : name ≠ []) (hw : ∀ c ∈ name, isWs c = false) (hc : ':' ∉ name)
    (cs : Caps) : ∃ zs, (roleMarkerRe g g').run (':' :: (name ++ ':' :: e)) cs =
      (e, (g, ':' :: (name ++ [':'])) :: (g', name) :: cs) :: zs := by
  have hn : ∀ c ∈ name, nonWs c = true := fun c h => by simp [nonWs, hw c h]
  obtain ⟨pre, post, h1, h2⟩ := content_run (A := nonWs) (F := nonWs) (B := clsNotNewline) (c := name) (e := ':' :: e) cs
    (by cases name with
        | nil => exact absurd rfl hne
        | cons a l => exact ⟨a, rfl, hn a (by simp)⟩)
    (by rcases List.eq_nil_or_concat name with rfl | ⟨l, a, rfl⟩
        · exact absurd rfl hne
        · exact ⟨a, by simp, hn a (by simp)⟩)
    (by intro x hx
        have := hw x hx
        simp only [clsNotNewline, Bool.not_eq_true', beq_eq_false_iff_ne]
        rintro rfl
        revert this; decide)
  have hcap : (Re.cap g' roleRe).run (name ++ ':' :: e) cs =
      (pre ++ (':' :: e, cs) :: post).map fun q =>
        (q.1, (g', (name ++ ':' :: e).take ((name ++ ':' :: e).length - q.1.length)) :: q.2) := by
    rw [← h1]; rfl
  have hseq : ∃ zs, (Re.seq (.cap g' roleRe) (.chr ':')).run (name ++ ':' :: e) cs = (e, (g', name) :: cs) :: zs := by
    rw [Re.run, hcap, List.map_append, List.map_cons]
    refine flatMap_first (ys := []) ?_ (x := (':' :: e, (g', (name ++ ':' :: e).take ((name ++ ':' :: e).length -
      (':' :: e).length)) :: cs)) ?_
    · intro q hq
      obtain ⟨q', hq', rfl⟩ := List.mem_map.mp hq
      obtain ⟨_, u, v, huv, hv, hq1⟩ := h2 q' hq'
      cases v with
      | nil => exact absurd rfl hv
      | cons b v =>
        rw [hq1]
        have : b ≠ ':' := by
          rintro rfl
          exact hc (by rw [huv]; simp)
        simp [Re.chr, Re.run, this]
    · rw [take_sub]; simp [Re.chr, Re.run]
  obtain ⟨zs, hseq⟩ := hseq
  have hall : (Re.seq (.chr ':') (.seq (.cap g' roleRe) (.chr ':'))).run (':' :: (name ++ ':' :: e)) cs =
      (e, (g', name) :: cs) :: zs := by
    rw [Re.run]
    have : (Re.chr ':').run (':' :: (name ++ ':' :: e)) cs = [(name ++ ':' :: e, cs)] := by simp [Re.chr, Re.run]
    rw [this, List.flatMap_singleton]
    exact hseq
  rw [Re.run, hall, List.map_cons]
  have : (':' :: (name ++ ':' :: e)) = (':' :: (name ++ [':'])) ++ e := by simp
  rw [this, take_sub]
  exact ⟨_, rfl⟩

/-- What comes after the look-behind and the name of a role. -/
abbrev quotedRe : Re :=
  .seq (.cap .markupStart (.chr '`')) (.seq (.cap .content contentRe) (.seq (.cap .markupEnd (.chr '`'))
    (.seq (Re.opt (roleMarkerRe .backRoleMarker .backRole)) lookaheadRe)))

theorem reInterpreted_eq : reInterpretedText =
    .seq (Re.opt (.cap .lookbehind (.cls clsLookbehind))) (.seq (Re.opt (roleMarkerRe .frontRoleMarker .frontRole)) quotedRe) := rfl

theorem closed_marker {s : Str} (h : Closed s) : ∀ t, s = ':' :: t → AtEnd t := by
  rintro t rfl
  rcases h ':' rfl with h | h | h
  · exact absurd h (by decide)
  · exact absurd h (by decide)
  · exact h.2

theorem colon_dead {s : Str} (h : s.head? ≠ some ':') {r : Re} (g : Grp) (cs : Caps) : (Re.cap g (.seq (.chr ':') r)).run s cs = [] := by
  refine run_cap_dead (run_seq_dead ?_)
  cases s with
  | nil => rfl
  | cons a s =>
    refine run_chr_ne ?_ _
    rintro rfl; exact h rfl

theorem quoted_run {c rest : Str} (h : Marked '`' c) (hr : Closed rest) (cs : Caps) :
    ∃ q u zs, quotedRe.run ('`' :: (c ++ '`' :: rest)) cs =
      (q, (.lookahead, u) :: (.markupEnd, ['`']) :: (.content, c) :: (.markupStart, ['`']) :: cs) :: zs := by
  obtain ⟨q, u, zs, hla⟩ := lookahead_run hr ((.markupEnd, ['`']) :: (.content, c) :: (.markupStart, ['`']) :: cs)
  have hback : (Re.seq (Re.opt (roleMarkerRe .backRoleMarker .backRole)) lookaheadRe).run rest
      ((.markupEnd, ['`']) :: (.content, c) :: (.markupStart, ['`']) :: cs) =
      (q, (.lookahead, u) :: (.markupEnd, ['`']) :: (.content, c) :: (.markupStart, ['`']) :: cs) :: zs := by
    rw [Re.run, Re.opt, Re.run, marker_dead (closed_marker hr), List.nil_append]
    rw [show Re.eps.run rest ((.markupEnd, ['`']) :: (.content, c) :: (.markupStart, ['`']) :: cs) = [(rest, _)] from rfl,
      List.flatMap_singleton]
    exact hla
  have tick : ∀ (g : Grp) (s : Str) (cs : Caps), (Re.cap g (.chr '`')).run ('`' :: s) cs = [(s, (g, ['`']) :: cs)] := by
    intro g s cs
    have : ('`' :: s) = ['`'] ++ s := rfl
    simp only [Re.run, Re.chr, beq_self_eq_true, if_true, List.map_cons, List.map_nil]
    rw [this, take_sub]
  obtain ⟨zs', hcont⟩ := marked_run (e := '`' :: rest) h ((.markupStart, ['`']) :: cs)
    (fun r => (Re.seq (.cap .markupEnd (.chr '`'))
      (.seq (Re.opt (roleMarkerRe .backRoleMarker .backRole)) lookaheadRe)).run r.1 r.2) (by
      intro a s cs ha
      exact run_seq_dead (run_cap_dead (run_chr_ne ha _))) (q := (q, (.lookahead, u) :: (.markupEnd, ['`']) :: (.content, c) :: (.markupStart, ['`']) :: cs)) (qs := zs) (by
      show (Re.seq (.cap .markupEnd (.chr '`')) _).run ('`' :: rest) _ = _
      rw [Re.run, tick, List.flatMap_singleton]
      exact hback)
  refine ⟨q, u, zs', ?_⟩
  rw [Re.run, tick, List.flatMap_singleton, Re.run]
  exact hcont

/-- Interpreted text with a role in front. -/
theorem role_captures {name c rest : Str} (hne : name ≠ []) (hw : ∀ c ∈ name, isWs c = false) (hc : ':' ∉ name)
    (ht : name.head? ≠ some '`') (h : Marked '`' c) (hr : Closed rest) :
    ∃ w t u, reInterpretedText.captures (':' :: (name ++ ':' :: '`' :: (c ++ '`' :: rest))) =
      some ⟨w, t, (.lookahead, u) :: (.markupEnd, ['`']) :: (.content, c) :: (.markupStart, ['`']) ::
        (.frontRoleMarker, ':' :: (name ++ [':'])) :: (.frontRole, name) :: []⟩ := by
  obtain ⟨q, u, zs, hq⟩ := quoted_run h hr ((.frontRoleMarker, ':' :: (name ++ [':'])) :: (.frontRole, name) :: [])
  obtain ⟨ms, hm⟩ := role_marker (g := .frontRoleMarker) (g' := .frontRole) (e := '`' :: (c ++ '`' :: rest)) hne hw hc []
  have hmain : ∃ zs', (Re.seq (Re.opt (roleMarkerRe .frontRoleMarker .frontRole)) quotedRe).run
      (':' :: (name ++ ':' :: '`' :: (c ++ '`' :: rest))) [] =
      (q, (.lookahead, u) :: (.markupEnd, ['`']) :: (.content, c) :: (.markupStart, ['`']) ::
        (.frontRoleMarker, ':' :: (name ++ [':'])) :: (.frontRole, name) :: []) :: zs' := by
    rw [Re.run, Re.opt, Re.run, hm, List.cons_append, List.flatMap_cons]
    dsimp only
    rw [hq]
    exact ⟨_, rfl⟩
  obtain ⟨zs', hmain⟩ := hmain
  have hdead : ∀ cs, (Re.seq (Re.opt (roleMarkerRe .frontRoleMarker .frontRole)) quotedRe).run
      (name ++ ':' :: '`' :: (c ++ '`' :: rest)) cs = [] := by
    intro cs
    cases name with
    | nil => exact absurd rfl hne
    | cons a name =>
      rw [Re.run, Re.opt, Re.run, List.cons_append, colon_dead (by
        simp only [List.head?_cons, ne_eq, Option.some.injEq]
        rintro rfl; exact hc (by simp)), List.nil_append]
      rw [show Re.eps.run (a :: (name ++ ':' :: '`' :: (c ++ '`' :: rest))) cs = [(_, cs)] from rfl, List.flatMap_singleton]
      refine run_seq_dead (run_cap_dead (run_chr_ne ?_ _))
      rintro rfl; exact ht rfl
  have hall : reInterpretedText.run (':' :: (name ++ ':' :: '`' :: (c ++ '`' :: rest))) [] =
      (q, (.lookahead, u) :: (.markupEnd, ['`']) :: (.content, c) :: (.markupStart, ['`']) ::
        (.frontRoleMarker, ':' :: (name ++ [':'])) :: (.frontRole, name) :: []) :: zs' := by
    rw [reInterpreted_eq, Re.run]
    have hb : (Re.opt (.cap .lookbehind (.cls clsLookbehind))).run (':' :: (name ++ ':' :: '`' :: (c ++ '`' :: rest))) [] =
        [(name ++ ':' :: '`' :: (c ++ '`' :: rest), [(Grp.lookbehind, [':'])]), (':' :: (name ++ ':' :: '`' :: (c ++ '`' :: rest)), [])] := by
      have e : clsLookbehind ':' = true := by decide
      have e2 : (':' :: (name ++ ':' :: '`' :: (c ++ '`' :: rest))) = [':'] ++ (name ++ ':' :: '`' :: (c ++ '`' :: rest)) := rfl
      simp only [Re.opt, Re.run, e, if_true, List.map_cons, List.map_nil, List.cons_append, List.nil_append]
      rw [e2, take_sub]
    rw [hb, List.flatMap_cons, List.flatMap_singleton]
    dsimp only
    rw [hdead, hmain, List.nil_append]
  unfold Re.captures
  rw [hall]
  exact ⟨_, _, _, rfl⟩

/-- The step at interpreted text with a role in front. -/
theorem role_node (d : Option DocTree) {w t u name c : Str} (hne : name ≠ []) {n : NodeType} (hn : roleNode name c = .ok n) :
    interpretedText ⟨w, t, (.lookahead, u) :: (.markupEnd, ['`']) :: (.content, c) :: (.markupStart, ['`']) ::
        (.frontRoleMarker, ':' :: (name ++ [':'])) :: (.frontRole, name) :: []⟩ d =
      .ok ([n], (':' :: (name ++ ':' :: '`' :: (c ++ ['`']))).length, d) := by
  cases name with
  | nil => exact absurd rfl hne
  | cons a name =>
  simp [interpretedText, Match.getD, Match.need, Match.get, C35_needs_lookbehind, hn, bind, Except.bind, pure,
    Except.pure]
  omega

end Rustla
