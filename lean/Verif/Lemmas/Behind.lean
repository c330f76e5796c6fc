import Verif.Lemmas.First
import Verif.Lemmas.Rel
import Verif.Spec.Markup
/-! # Markup behind an opening character -/
namespace Rustla
open Spec

theorem starRun_caps {g : Bool} {f : Str → Caps → List (Str × Caps)} (hf : ∀ s cs, f s cs = (f s []).map fun q => (q.1, q.2 ++ cs)) :
    ∀ n s cs, starRun g f n s cs = (starRun g f n s []).map fun q => (q.1, q.2 ++ cs) := by
  intro n
  induction n with
  | zero => intro s cs; simp [starRun]
  | succ n ih =>
    intro s cs
    have more : ((f s cs).flatMap fun r => if r.1.length < s.length then starRun g f n r.1 r.2 else []) =
        ((f s []).flatMap fun r => if r.1.length < s.length then starRun g f n r.1 r.2 else []).map fun q => (q.1, q.2 ++ cs) := by
      rw [hf s cs, List.flatMap_map, List.map_flatMap]
      congr 1
      funext r
      dsimp only
      by_cases h : r.1.length < s.length
      · rw [if_pos h, if_pos h, ih r.1 (r.2 ++ cs), ih r.1 r.2, List.map_map]
        congr 1
        funext q
        simp
      · rw [if_neg h, if_neg h]; rfl
    simp only [starRun]
    rw [more]
    cases g <;> simp

/-- The groups that were found before a match stay behind those of the match. -/
theorem Re.run_groups (r : Re) : ∀ s cs, r.run s cs = (r.run s []).map fun q => (q.1, q.2 ++ cs) := by
  induction r with
  | eps => intro s cs; simp [Re.run]
  | cls p =>
    intro s cs
    cases s with
    | nil => simp [Re.run]
    | cons c s => by_cases h : p c = true <;> simp [Re.run, h]
  | seq a b iha ihb =>
    intro s cs
    simp only [Re.run]
    rw [iha s cs, List.flatMap_map, List.map_flatMap]
    congr 1
    funext q
    dsimp only
    rw [ihb q.1 (q.2 ++ cs), ihb q.1 q.2, List.map_map]
    congr 1
    funext q
    simp
  | alt a b iha ihb => intro s cs; simp only [Re.run]; rw [iha s cs, ihb s cs, List.map_append]
  | star g r ih => intro s cs; simp only [Re.run]; exact starRun_caps ih _ s cs
  | cap g r ih =>
    intro s cs
    simp only [Re.run]
    rw [ih s cs, List.map_map, List.map_map]
    rfl
  | eos => intro s cs; cases s <;> simp [Re.run]

/-- Patterns that may start with a character before the markup. -/
abbrev behindRe (L X : Re) : Re := .seq (Re.opt (.cap .lookbehind L)) X

theorem behindRe_run (L X : Re) (s : Str) (cs : Caps) : (behindRe L X).run s cs =
    ((Re.cap .lookbehind L).run s cs).flatMap (fun q => X.run q.1 q.2) ++ X.run s cs := by
  simp [Re.run, Re.opt]

/-- A pattern that does not match behind an opening character does not match before it. -/
theorem behind_skip {L X : Re} {c : Char} {s : Str} (hL : ∀ q ∈ L.run (c :: s) [], q.1 = s) (hs : (behindRe L X).captures s = none)
    (hx : X.run (c :: s) [] = []) : (behindRe L X).captures (c :: s) = none := by
  rw [Re.captures_none_iff, behindRe_run, hx, List.append_nil, List.flatMap_eq_nil_iff]
  rw [Re.captures_none_iff, behindRe_run] at hs
  have hs := (List.append_eq_nil_iff.mp hs).2
  intro q hq
  obtain ⟨m, r, _, hr, rfl⟩ := mem_cap.mp hq
  rw [X.run_groups, hL r hr, hs]; rfl

/-- A pattern that matches behind an opening character matches before it. -/
theorem behind_take {L X : Re} {c : Char} {s : Str} {m : Match} (hL : First L (c :: s) [] (s, []))
    (h : (behindRe L X).captures s = some m) (hl : m.get .lookbehind = none) :
    ∃ w, (behindRe L X).captures (c :: s) = some ⟨w, m.rest, m.caps ++ [(.lookbehind, [c])]⟩ := by
  have hfirst : ∃ zs, X.run s [] = (m.rest, m.caps) :: zs := by
    unfold Re.captures at h
    rw [behindRe_run] at h
    cases hb : ((Re.cap .lookbehind L).run s []).flatMap (fun q => X.run q.1 q.2) with
    | nil =>
      rw [hb, List.nil_append] at h
      cases hx : X.run s [] with
      | nil => rw [hx] at h; cases h
      | cons q zs => rw [hx] at h; cases h; exact ⟨zs, rfl⟩
    | cons q zs =>
      exfalso
      rw [hb] at h
      cases h
      have hq : q ∈ ((Re.cap .lookbehind L).run s []).flatMap (fun q => X.run q.1 q.2) := by rw [hb]; simp
      obtain ⟨q', h1, h2⟩ := List.mem_flatMap.mp hq
      obtain ⟨v, r, _, _, rfl⟩ := mem_cap.mp h1
      rw [X.run_groups] at h2
      obtain ⟨p, _, rfl⟩ := List.mem_map.mp h2
      have : ∃ x ∈ (p.2 ++ (Grp.lookbehind, v) :: r.2), decide (x.1 = Grp.lookbehind) = true := ⟨(.lookbehind, v), by simp, by simp⟩
      rw [← List.find?_isSome] at this
      simp only [Match.get, Option.map_eq_none_iff] at hl
      rw [hl] at this; cases this
  obtain ⟨zs, hz⟩ := hfirst
  have hcap : First (.cap .lookbehind L) ([c] ++ s) [] (s, (.lookbehind, [c]) :: []) := First.cap (w := [c]) hL
  have : First (behindRe L X) (c :: s) [] (m.rest, m.caps ++ [(.lookbehind, [c])]) :=
    First.seq (First.opt hcap) (⟨_, by rw [X.run_groups, hz]; rfl⟩)
  obtain ⟨ys, hy⟩ := this
  exact ⟨_, by unfold Re.captures; rw [hy]⟩

end Rustla
