import Verif.Lemmas.Regex
/-! # Facts about capture groups -/
namespace Rustla

/-! ## Patterns that cannot match -/

/-- The pattern matches no text all of whose characters satisfy `P`. -/
def Dead (P : Char → Prop) (r : Re) : Prop := ∀ s cs, (∀ x ∈ s, P x) → r.run s cs = []

theorem Dead.cls {P : Char → Prop} {p : Char → Bool} (h : ∀ c, P c → p c = false) : Dead P (.cls p) := by
  intro s cs hs
  cases s with
  | nil => rfl
  | cons c s => simp [Re.run, h c (hs c (by simp))]

theorem Dead.chr {P : Char → Prop} {a : Char} (h : ¬ P a) : Dead P (.chr a) :=
  .cls fun c hc => by
    cases e : (c == a)
    · rfl
    · rw [beq_iff_eq] at e; subst e; exact absurd hc h

theorem Dead.left {P : Char → Prop} {a b : Re} (h : Dead P a) : Dead P (.seq a b) := by
  intro s cs hs
  simp [Re.run, h s cs hs]

theorem Dead.right {P : Char → Prop} {a b : Re} (h : Dead P b) : Dead P (.seq a b) := by
  intro s cs hs
  simp only [Re.run]
  rw [List.flatMap_eq_nil_iff]
  intro q hq
  obtain ⟨m, hm⟩ := a.run_suffix s cs q hq
  exact h _ _ fun x hx => hs x (by rw [hm]; simp [hx])

theorem Dead.alt {P : Char → Prop} {a b : Re} (ha : Dead P a) (hb : Dead P b) : Dead P (.alt a b) := by
  intro s cs hs
  simp [Re.run, ha s cs hs, hb s cs hs]

theorem Dead.cap {P : Char → Prop} {g : Grp} {a : Re} (h : Dead P a) : Dead P (.cap g a) := by
  intro s cs hs
  simp [Re.run, h s cs hs]

theorem Dead.captures {P : Char → Prop} {r : Re} (h : Dead P r) {s : Str} (hs : ∀ x ∈ s, P x) :
    r.captures s = none := by
  rw [Re.captures_none_iff]; exact h s [] hs

/-! ## Where captured texts come from -/

/-- All groups of a pattern with their bodies. -/
def Re.capBodies : Re → List (Grp × Re)
  | .eps => []
  | .cls _ => []
  | .seq a b => a.capBodies ++ b.capBodies
  | .alt a b => a.capBodies ++ b.capBodies
  | .star _ r => r.capBodies
  | .cap g r => (g, r) :: r.capBodies
  | .eos => []

/-- `t` is a text that `b` matches somewhere. -/
def MatchedBy (b : Re) (t : Str) : Prop := ∃ s cs q, q ∈ b.run s cs ∧ s = t ++ q.1

theorem starRun_ind {g : Bool} {f : Str → Caps → List (Str × Caps)} {Q : Str → Caps → Str → Caps → Prop}
    (refl : ∀ s cs, Q s cs s cs)
    (step : ∀ s cs (r q : Str × Caps), r ∈ f s cs → Q r.1 r.2 q.1 q.2 → Q s cs q.1 q.2) :
    ∀ n s cs q, q ∈ starRun g f n s cs → Q s cs q.1 q.2 := by
  intro n
  induction n with
  | zero => intro s cs q h; simp [starRun] at h; subst h; exact refl _ _
  | succ n ih =>
    intro s cs q h
    have : q = (s, cs) ∨ q ∈ (f s cs).flatMap fun r => if r.1.length < s.length then starRun g f n r.1 r.2 else [] := by
      cases g
      · simpa [starRun] using h
      · simp only [starRun, if_true, List.mem_append, List.mem_singleton] at h
        rcases h with h | h
        · exact .inr h
        · exact .inl h
    rcases this with rfl | h
    · exact refl _ _
    · obtain ⟨r, hr, hq⟩ := List.mem_flatMap.mp h
      split at hq
      · exact step _ _ _ _ hr (ih _ _ _ hq)
      · simp at hq

/-- Every captured text was matched by the body of its group. -/
theorem Re.run_prov (r : Re) : ∀ s cs q, q ∈ r.run s cs → ∀ g t, (g, t) ∈ q.2 →
    (g, t) ∈ cs ∨ ∃ b, (g, b) ∈ r.capBodies ∧ MatchedBy b t := by
  induction r with
  | eps => intro s cs q h g t hg; simp [Re.run] at h; subst h; exact .inl hg
  | cls p =>
    intro s cs q h g t hg
    cases s with
    | nil => simp [Re.run] at h
    | cons c s =>
      simp only [Re.run] at h
      split at h
      · simp at h; subst h; exact .inl hg
      · simp at h
  | seq a b iha ihb =>
    intro s cs q h g t hg
    obtain ⟨r, hr, hq⟩ := List.mem_flatMap.mp h
    rcases ihb _ _ _ hq g t hg with h1 | ⟨b', hb', hm⟩
    · rcases iha _ _ _ hr g t h1 with h2 | ⟨b', hb', hm⟩
      · exact .inl h2
      · exact .inr ⟨b', by simp [capBodies, hb'], hm⟩
    · exact .inr ⟨b', by simp [capBodies, hb'], hm⟩
  | alt a b iha ihb =>
    intro s cs q h g t hg
    rcases List.mem_append.mp h with h | h
    · rcases iha _ _ _ h g t hg with h2 | ⟨b', hb', hm⟩
      · exact .inl h2
      · exact .inr ⟨b', by simp [capBodies, hb'], hm⟩
    · rcases ihb _ _ _ h g t hg with h2 | ⟨b', hb', hm⟩
      · exact .inl h2
      · exact .inr ⟨b', by simp [capBodies, hb'], hm⟩
  | star gr r ih =>
    intro s cs q h
    refine starRun_ind (Q := fun _ cs _ cs' => ∀ g t, (g, t) ∈ cs' →
      (g, t) ∈ cs ∨ ∃ b, (g, b) ∈ r.capBodies ∧ MatchedBy b t) ?_ ?_ _ _ _ _ h
    · intro s cs g t hg; exact .inl hg
    · intro s cs r' q' hr' hq' g t hg
      rcases hq' g t hg with h1 | h1
      · exact ih _ _ _ hr' g t h1
      · exact .inr h1
  | cap g' r ih =>
    intro s cs q h g t hg
    simp only [Re.run] at h
    obtain ⟨q', hq', rfl⟩ := List.mem_map.mp h
    simp only [List.mem_cons, Prod.mk.injEq] at hg
    rcases hg with ⟨rfl, rfl⟩ | hg
    · refine .inr ⟨r, by simp [capBodies], s, cs, q', hq', ?_⟩
      obtain ⟨m, hm⟩ := r.run_suffix _ _ _ hq'
      have : s.length - q'.1.length = m.length := by rw [hm]; simp
      rw [this]; conv => lhs; rw [hm]
      rw [hm]; simp
    · rcases ih _ _ _ hq' g t hg with h2 | ⟨b', hb', hm⟩
      · exact .inl h2
      · exact .inr ⟨b', by simp [capBodies, hb'], hm⟩
  | eos =>
    intro s cs q h g t hg
    simp only [Re.run] at h
    split at h
    · simp at h; subst h; exact .inl hg
    · simp at h

theorem Re.captures_run {r : Re} {s : Str} {m : Match} (h : r.captures s = some m) :
    (m.rest, m.caps) ∈ r.run s [] := by
  unfold Re.captures at h
  split at h
  · cases h
  · rename_i q _ hq
    cases h
    rw [hq]; simp

/-- Every captured text was matched by the body of its group. -/
theorem Re.get_prov {r : Re} {s : Str} {m : Match} (h : r.captures s = some m) {g : Grp} {t : Str}
    (hg : m.get g = some t) : ∃ b, (g, b) ∈ r.capBodies ∧ MatchedBy b t := by
  unfold Match.get at hg
  cases hf : m.caps.find? (·.1 = g) with
  | none => simp [hf] at hg
  | some p =>
    simp only [hf, Option.map_some, Option.some.injEq] at hg
    have h1 := List.mem_of_find?_eq_some hf
    have h2 := List.find?_some hf
    simp only [decide_eq_true_eq] at h2
    have : (g, t) ∈ m.caps := by rw [← h2, ← hg]; exact h1
    rcases r.run_prov s [] _ (Re.captures_run h) g t this with h3 | h3
    · simp at h3
    · exact h3

theorem MatchedBy.minLen {b : Re} {t : Str} (h : MatchedBy b t) : b.minLen ≤ t.length := by
  obtain ⟨s, cs, q, hq, e⟩ := h
  have := b.run_minLen _ _ _ hq
  rw [e] at this; simp at this; omega

/-- The text of a group is at least as long as all bodies of that group demand. -/
theorem Re.get_minLen {r : Re} {s : Str} {m : Match} (h : r.captures s = some m) {g : Grp} {t : Str}
    (hg : m.get g = some t) (n : Nat) (hb : ∀ p ∈ r.capBodies, p.1 = g → n ≤ p.2.minLen) : n ≤ t.length := by
  obtain ⟨b, hb', hm⟩ := r.get_prov h hg
  exact Nat.le_trans (hb _ hb' rfl) hm.minLen

/-! ## Groups that take part in every match -/

/-- Some group of `gs` takes part in every match. -/
def Re.always (gs : List Grp) : Re → Bool
  | .eps => false
  | .cls _ => false
  | .seq a b => a.always gs || b.always gs
  | .alt a b => a.always gs && b.always gs
  | .star _ _ => false
  | .cap g r => gs.contains g || r.always gs
  | .eos => false

/-- Captures are only added. -/
theorem Re.run_grow (r : Re) : ∀ s cs q, q ∈ r.run s cs → ∀ p ∈ cs, p ∈ q.2 := by
  induction r with
  | eps => intro s cs q h p hp; simp [Re.run] at h; subst h; exact hp
  | cls p =>
    intro s cs q h p hp
    cases s with
    | nil => simp [Re.run] at h
    | cons c s =>
      simp only [Re.run] at h
      split at h
      · simp at h; subst h; exact hp
      · simp at h
  | seq a b iha ihb =>
    intro s cs q h p hp
    obtain ⟨r, hr, hq⟩ := List.mem_flatMap.mp h
    exact ihb _ _ _ hq p (iha _ _ _ hr p hp)
  | alt a b iha ihb =>
    intro s cs q h p hp
    rcases List.mem_append.mp h with h | h
    · exact iha _ _ _ h p hp
    · exact ihb _ _ _ h p hp
  | star gr r ih =>
    intro s cs q h
    refine starRun_ind (Q := fun _ cs _ cs' => ∀ p ∈ cs, p ∈ cs') ?_ ?_ _ _ _ _ h
    · intro s cs p hp; exact hp
    · intro s cs r' q' hr' hq' p hp; exact hq' p (ih _ _ _ hr' p hp)
  | cap g' r ih =>
    intro s cs q h p hp
    simp only [Re.run] at h
    obtain ⟨q', hq', rfl⟩ := List.mem_map.mp h
    simp [ih _ _ _ hq' p hp]
  | eos =>
    intro s cs q h p hp
    simp only [Re.run] at h
    split at h
    · simp at h; subst h; exact hp
    · simp at h

theorem Re.run_always (gs : List Grp) (r : Re) (hr : r.always gs = true) :
    ∀ s cs q, q ∈ r.run s cs → ∃ g ∈ gs, ∃ t, (g, t) ∈ q.2 := by
  induction r with
  | eps => simp [always] at hr
  | cls p => simp [always] at hr
  | seq a b iha ihb =>
    intro s cs q h
    obtain ⟨r, hr', hq⟩ := List.mem_flatMap.mp h
    simp only [always, Bool.or_eq_true] at hr
    rcases hr with ha | hb
    · obtain ⟨g, hg, t, ht⟩ := iha ha _ _ _ hr'
      exact ⟨g, hg, t, b.run_grow _ _ _ hq _ ht⟩
    · exact ihb hb _ _ _ hq
  | alt a b iha ihb =>
    intro s cs q h
    simp only [always, Bool.and_eq_true] at hr
    rcases List.mem_append.mp h with h | h
    · exact iha hr.1 _ _ _ h
    · exact ihb hr.2 _ _ _ h
  | star gr r ih => simp [always] at hr
  | cap g' r ih =>
    intro s cs q h
    simp only [Re.run] at h
    obtain ⟨q', hq', rfl⟩ := List.mem_map.mp h
    simp only [always, Bool.or_eq_true, List.contains_iff_mem] at hr
    rcases hr with hg | hr
    · exact ⟨g', hg, _, List.mem_cons_self ..⟩
    · obtain ⟨g, hg, t, ht⟩ := ih hr _ _ _ hq'
      exact ⟨g, hg, t, List.mem_cons_of_mem _ ht⟩
  | eos => simp [always] at hr

theorem Match.get_of_mem {m : Match} {g : Grp} {t : Str} (h : (g, t) ∈ m.caps) : ∃ t', m.get g = some t' := by
  unfold Match.get
  cases hf : m.caps.find? (·.1 = g) with
  | none =>
    have := List.find?_eq_none.mp hf (g, t) h
    simp at this
  | some p => exact ⟨p.2, rfl⟩

theorem Re.get_always {r : Re} {s : Str} {m : Match} (h : r.captures s = some m) (gs : List Grp)
    (hr : r.always gs = true) : ∃ g ∈ gs, ∃ t, m.get g = some t := by
  obtain ⟨g, hg, t, ht⟩ := r.run_always gs hr s [] _ (Re.captures_run h)
  exact ⟨g, hg, Match.get_of_mem ht⟩

theorem Re.get_always1 {r : Re} {s : Str} {m : Match} (h : r.captures s = some m) (g : Grp)
    (hr : r.always [g] = true) : ∃ t, m.get g = some t := by
  obtain ⟨g', hg, t, ht⟩ := r.get_always h [g] hr
  simp only [List.mem_singleton] at hg; subst hg
  exact ⟨t, ht⟩

/-! ## Captured texts do not overlap -/

/-- No group of `gs` inside. -/
def Re.avoids (gs : List Grp) (r : Re) : Bool := r.capBodies.all fun p => !gs.contains p.1

/-- Groups of `gs` are not nested in each other. -/
def Re.flat (gs : List Grp) : Re → Bool
  | .eps => true
  | .cls _ => true
  | .seq a b => a.flat gs && b.flat gs
  | .alt a b => a.flat gs && b.flat gs
  | .star _ r => r.flat gs
  | .cap g r => if gs.contains g then r.avoids gs else r.flat gs
  | .eos => true

/-- Total length of the texts captured under `gs`. -/
def totalLen (gs : List Grp) : Caps → Nat
  | [] => 0
  | (g, t) :: cs => (if gs.contains g then t.length else 0) + totalLen gs cs

theorem Re.avoids_flat (gs : List Grp) (r : Re) (h : r.avoids gs = true) : r.flat gs = true := by
  induction r with
  | eps => rfl
  | cls p => rfl
  | seq a b iha ihb =>
    simp only [avoids, capBodies, List.all_append, Bool.and_eq_true] at h
    simp [flat, iha h.1, ihb h.2]
  | alt a b iha ihb =>
    simp only [avoids, capBodies, List.all_append, Bool.and_eq_true] at h
    simp [flat, iha h.1, ihb h.2]
  | star gr r ih => exact ih h
  | cap g r ih =>
    simp only [avoids, capBodies, List.all_cons, Bool.and_eq_true, Bool.not_eq_true'] at h
    simp only [flat, h.1, Bool.false_eq_true, if_false]
    exact ih h.2
  | eos => rfl

theorem Re.run_avoids (gs : List Grp) (r : Re) (hr : r.avoids gs = true) :
    ∀ s cs q, q ∈ r.run s cs → totalLen gs q.2 = totalLen gs cs := by
  induction r with
  | eps => intro s cs q h; simp [Re.run] at h; subst h; rfl
  | cls p =>
    intro s cs q h
    cases s with
    | nil => simp [Re.run] at h
    | cons c s =>
      simp only [Re.run] at h
      split at h
      · simp at h; subst h; rfl
      · simp at h
  | seq a b iha ihb =>
    simp only [avoids, capBodies, List.all_append, Bool.and_eq_true] at hr
    intro s cs q h
    obtain ⟨r, hr', hq⟩ := List.mem_flatMap.mp h
    rw [ihb hr.2 _ _ _ hq, iha hr.1 _ _ _ hr']
  | alt a b iha ihb =>
    simp only [avoids, capBodies, List.all_append, Bool.and_eq_true] at hr
    intro s cs q h
    rcases List.mem_append.mp h with h | h
    · exact iha hr.1 _ _ _ h
    · exact ihb hr.2 _ _ _ h
  | star gr r ih =>
    intro s cs q h
    refine starRun_ind (Q := fun _ cs _ cs' => totalLen gs cs' = totalLen gs cs) ?_ ?_ _ _ _ _ h
    · intro s cs; rfl
    · intro s cs r' q' hr' hq'; rw [hq', ih hr _ _ _ hr']
  | cap g' r ih =>
    simp only [avoids, capBodies, List.all_cons, Bool.and_eq_true, Bool.not_eq_true'] at hr
    intro s cs q h
    simp only [Re.run] at h
    obtain ⟨q', hq', rfl⟩ := List.mem_map.mp h
    simp only [totalLen, hr.1, Bool.false_eq_true, if_false, Nat.zero_add]
    exact ih hr.2 _ _ _ hq'
  | eos =>
    intro s cs q h
    simp only [Re.run] at h
    split at h
    · simp at h; subst h; rfl
    · simp at h

theorem Re.run_flat (gs : List Grp) (r : Re) (hr : r.flat gs = true) :
    ∀ s cs q, q ∈ r.run s cs → totalLen gs q.2 + q.1.length ≤ totalLen gs cs + s.length := by
  induction r with
  | eps => intro s cs q h; simp [Re.run] at h; subst h; exact Nat.le_refl _
  | cls p =>
    intro s cs q h
    cases s with
    | nil => simp [Re.run] at h
    | cons c s =>
      simp only [Re.run] at h
      split at h
      · simp at h; subst h; simp
      · simp at h
  | seq a b iha ihb =>
    simp only [flat, Bool.and_eq_true] at hr
    intro s cs q h
    obtain ⟨r, hr', hq⟩ := List.mem_flatMap.mp h
    exact Nat.le_trans (ihb hr.2 _ _ _ hq) (iha hr.1 _ _ _ hr')
  | alt a b iha ihb =>
    simp only [flat, Bool.and_eq_true] at hr
    intro s cs q h
    rcases List.mem_append.mp h with h | h
    · exact iha hr.1 _ _ _ h
    · exact ihb hr.2 _ _ _ h
  | star gr r ih =>
    intro s cs q h
    refine starRun_ind (Q := fun s cs s' cs' => totalLen gs cs' + s'.length ≤ totalLen gs cs + s.length) ?_ ?_ _ _ _ _ h
    · intro s cs; exact Nat.le_refl _
    · intro s cs r' q' hr' hq'; exact Nat.le_trans hq' (ih hr _ _ _ hr')
  | cap g' r ih =>
    intro s cs q h
    simp only [Re.run] at h
    obtain ⟨q', hq', rfl⟩ := List.mem_map.mp h
    have hr' : (if gs.contains g' then r.avoids gs else r.flat gs) = true := hr
    by_cases hg : gs.contains g' = true
    · rw [if_pos hg] at hr'
      have := r.run_avoids gs hr' _ _ _ hq'
      obtain ⟨mm, hm⟩ := r.run_suffix _ _ _ hq'
      have hl : s.length = mm.length + q'.1.length := by rw [hm]; simp
      simp only [totalLen, hg, if_true, this, List.length_take]
      omega
    · rw [if_neg hg] at hr'
      simp only [totalLen, hg, if_false, Nat.zero_add, Bool.false_eq_true]
      exact ih hr' _ _ _ hq'
  | eos =>
    intro s cs q h
    simp only [Re.run] at h
    split at h
    · simp at h; subst h; exact Nat.le_refl _
    · simp at h

/-- Length of the (latest) text captured under a group, 0 if there is none. -/
def capLen (cs : Caps) (g : Grp) : Nat := (((cs.find? (·.1 = g)).map (·.2)).getD []).length

/-- Length of the text of a group, 0 if it took no part in the match. -/
def Match.len (m : Match) (g : Grp) : Nat := ((m.get g).getD []).length

theorem capLen_self (g : Grp) (t : Str) (cs : Caps) : capLen ((g, t) :: cs) g = t.length := by
  simp [capLen]

theorem capLen_ne {g x : Grp} (h : g ≠ x) (t : Str) (cs : Caps) : capLen ((g, t) :: cs) x = capLen cs x := by
  simp [capLen, h]

theorem totalLen_mono {gs gs' : List Grp} (h : ∀ g ∈ gs, g ∈ gs') (cs : Caps) : totalLen gs cs ≤ totalLen gs' cs := by
  induction cs with
  | nil => simp [totalLen]
  | cons p cs ih =>
    simp only [totalLen]
    have : (if gs.contains p.1 then p.2.length else 0) ≤ (if gs'.contains p.1 then p.2.length else 0) := by
      by_cases h1 : gs.contains p.1 = true
      · have h' : gs'.contains p.1 = true := by
          simp only [List.contains_iff_mem] at h1 ⊢
          exact h _ h1
        rw [if_pos h1, if_pos h']; exact Nat.le_refl _
      · rw [if_neg h1]; exact Nat.zero_le _
    omega

theorem capLen_le_total (cs : Caps) : ∀ (gs : List Grp), gs.Nodup → (gs.map (capLen cs)).sum ≤ totalLen gs cs := by
  induction cs with
  | nil =>
    intro gs hn
    have : gs.map (capLen []) = gs.map fun _ => 0 := List.map_congr_left fun g _ => rfl
    rw [this]; clear this hn
    induction gs with
    | nil => simp [totalLen]
    | cons g gs ih => simp only [totalLen] at ih; simp only [List.map_cons, List.sum_cons, totalLen]; omega
  | cons p cs ih =>
    obtain ⟨g, t⟩ := p
    intro gs hn
    by_cases hg : g ∈ gs
    · have hp := List.perm_cons_erase hg
      have h2 : (g :: gs.erase g).Nodup := hp.nodup_iff.mp hn
      have hne : g ∉ gs.erase g := (List.nodup_cons.mp h2).1
      rw [(hp.map _).sum_nat]
      have e : (gs.erase g).map (capLen ((g, t) :: cs)) = (gs.erase g).map (capLen cs) := by
        apply List.map_congr_left
        intro x hx
        exact capLen_ne (fun e : g = x => hne (by subst e; exact hx)) _ _
      rw [List.map_cons, List.sum_cons, capLen_self, e]
      have h3 := ih (gs.erase g) (hn.erase g)
      have h4 := totalLen_mono (gs := gs.erase g) (gs' := gs) (fun x hx => List.mem_of_mem_erase hx) cs
      simp only [totalLen, List.contains_iff_mem, hg, if_true]
      omega
    · have e : gs.map (capLen ((g, t) :: cs)) = gs.map (capLen cs) := by
        apply List.map_congr_left
        intro x hx
        exact capLen_ne (fun e : g = x => hg (by subst e; exact hx)) _ _
      rw [e]
      have := ih gs hn
      simp only [totalLen, List.contains_iff_mem, hg, if_false, Nat.zero_add]
      exact this

theorem Match.len_le_total (gs : List Grp) (hn : gs.Nodup) (m : Match) :
    (gs.map m.len).sum ≤ totalLen gs m.caps := capLen_le_total m.caps gs hn

/-- The texts captured under groups that are not nested fit into the text matched. -/
theorem Re.len_sum_le {r : Re} {s : Str} {m : Match} (h : r.captures s = some m) (gs : List Grp) (hn : gs.Nodup)
    (hr : r.flat gs = true) : (gs.map m.len).sum ≤ m.whole.length := by
  have h1 := r.run_flat gs hr s [] _ (Re.captures_run h)
  have h2 := m.len_le_total gs hn
  have h3 := congrArg List.length (Re.captures_append h)
  simp only [totalLen, List.length_append] at h1 h3
  omega

/-! ## Longest matches -/

/-- Largest number of characters a pattern consumes, if bounded. -/
def Re.maxLen : Re → Option Nat
  | .eps => some 0
  | .cls _ => some 1
  | .seq a b => match a.maxLen, b.maxLen with | some x, some y => some (x + y) | _, _ => none
  | .alt a b => match a.maxLen, b.maxLen with | some x, some y => some (max x y) | _, _ => none
  | .star _ _ => none
  | .cap _ r => r.maxLen
  | .eos => some 0

theorem Re.run_maxLen (r : Re) : ∀ n, r.maxLen = some n → ∀ s cs q, q ∈ r.run s cs → s.length ≤ q.1.length + n := by
  induction r with
  | eps => intro n hn s cs q h; simp [Re.run] at h; subst h; simp
  | cls p =>
    intro n hn s cs q h
    simp only [maxLen, Option.some.injEq] at hn
    cases s with
    | nil => simp [Re.run] at h
    | cons c s =>
      simp only [Re.run] at h
      split at h
      · simp at h; subst h; simp [← hn]
      · simp at h
  | seq a b iha ihb =>
    intro n hn s cs q h
    obtain ⟨r, hr', hq⟩ := List.mem_flatMap.mp h
    simp only [maxLen] at hn
    split at hn
    · rename_i x y hx hy
      simp only [Option.some.injEq] at hn
      have := iha x hx _ _ _ hr'
      have := ihb y hy _ _ _ hq
      omega
    · cases hn
  | alt a b iha ihb =>
    intro n hn s cs q h
    simp only [maxLen] at hn
    split at hn
    · rename_i x y hx hy
      simp only [Option.some.injEq] at hn
      rcases List.mem_append.mp h with h | h
      · have := iha x hx _ _ _ h; omega
      · have := ihb y hy _ _ _ h; omega
    · cases hn
  | star g r ih => intro n hn; simp [maxLen] at hn
  | cap g r ih =>
    intro n hn s cs q h
    simp only [Re.run] at h
    obtain ⟨q', hq', rfl⟩ := List.mem_map.mp h
    exact ih n hn s cs q' hq'
  | eos =>
    intro n hn s cs q h
    simp only [Re.run] at h
    split at h
    · simp at h; subst h; simp
    · simp at h

theorem MatchedBy.maxLen {b : Re} {t : Str} (h : MatchedBy b t) {n : Nat} (hn : b.maxLen = some n) : t.length ≤ n := by
  obtain ⟨s, cs, q, hq, e⟩ := h
  have := b.run_maxLen n hn _ _ _ hq
  rw [e] at this; simp at this; omega

end Rustla
