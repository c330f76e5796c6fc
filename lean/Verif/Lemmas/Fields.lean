import Verif.Spec.Fields
import Verif.Lemmas.Regex
import Verif.Lemmas.Strings
import Verif.Model.Inline
/-!
# The lines of directive options
-/
namespace Rustla
open Spec

/-- Lazy repetition of a class: the shortest runs first. -/
theorem starRun_cls_lazy (p : Char → Bool) : ∀ (n : Nat) (s : Str) (cs : Caps), s.length ≤ n →
    starRun false (Re.cls p).run n s cs =
      ((List.range ((s.takeWhile p).length + 1)).map fun k => (s.drop k, cs)) := by
  intro n
  induction n with
  | zero =>
    intro s cs h
    have : s = [] := by cases s with | nil => rfl | cons => simp at h
    subst this; simp [starRun]
  | succ n ih =>
    intro s cs h
    cases s with
    | nil => simp [starRun, Re.run]
    | cons c s =>
      by_cases hp : p c
      · simp only [starRun, Re.run, hp, if_true, List.flatMap_cons, List.flatMap_nil, List.length_cons,
          Nat.lt_succ_self, List.append_nil, List.takeWhile_cons]
        rw [ih s cs (by simpa using h)]
        rw [List.range_succ_eq_map (n := (List.takeWhile p s).length + 1)]
        simp [Function.comp_def]
      · simp [starRun, Re.run, hp]

theorem run_star_cls_lazy (p : Char → Bool) (s : Str) (cs : Caps) :
    (Re.star false (.cls p)).run s cs =
      ((List.range ((s.takeWhile p).length + 1)).map fun k => (s.drop k, cs)) :=
  starRun_cls_lazy p _ s cs (Nat.le_refl _)

/-- The part of `reFieldMarker` for the name. -/
def reFieldName : Re :=
  .alt (.cls clsNonWsNonBackslash)
    (.seq (.cls nonWs) (.seq (.star false (.cls clsNotNewline)) (.cls clsNonWsNonBackslash)))

/-- The part of `reFieldMarker` behind the name. -/
def reFieldEnd : Re := .seq (.chr ':') (.alt (Re.plus true (.chr ' ')) .eos)

theorem reFieldMarker_eq : reFieldMarker = .seq (.cap .g1 (.star true (.cls isWs))) (.seq (.chr ':')
    (.seq (.cap .g2 reFieldName) reFieldEnd)) := rfl

/-- Decides whether a text is the name of an option. -/
def isName (s : Str) : Bool := s.head?.any nonWs && s.getLast?.any clsNonWsNonBackslash && s.all clsNotNewline

theorem isName_iff (s : Str) : isName s = true ↔ FieldName s := by
  unfold isName FieldName
  simp only [Bool.and_eq_true, Option.any_eq_true, nonWs, clsNonWsNonBackslash, clsNotNewline, List.all_eq_true,
    Bool.not_eq_true', beq_eq_false_iff_ne, and_assoc]
  refine and_congr Iff.rfl (and_congr Iff.rfl ?_)
  exact ⟨fun h hn => h _ hn rfl, fun h x hx e => h (e ▸ hx)⟩

/-- The lengths of the names at the beginning of a text. -/
def nameLengths (t : Str) : List Nat := (List.range' 1 t.length).filter fun n => isName (t.take n)

theorem FieldName_one (c : Char) : FieldName [c] ↔ clsNonWsNonBackslash c = true := by
  simp only [FieldName, clsNonWsNonBackslash, List.head?_cons, List.getLast?_singleton, Option.some.injEq, exists_eq_left',
    List.mem_singleton, Bool.and_eq_true, Bool.not_eq_true', beq_eq_false_iff_ne]
  constructor
  · rintro ⟨_, ⟨h2, h3⟩, _⟩; exact ⟨h2, h3⟩
  · rintro ⟨h1, h2⟩
    refine ⟨h1, ⟨h1, h2⟩, ?_⟩
    rintro rfl; revert h1; decide

theorem FieldName_more (c z : Char) (t : Str) : FieldName (c :: t ++ [z]) ↔
    nonWs c = true ∧ clsNonWsNonBackslash z = true ∧ ∀ x ∈ t, clsNotNewline x = true := by
  have hg : (c :: t ++ [z]).getLast? = some z := by rw [List.getLast?_append]; rfl
  unfold FieldName
  rw [hg]
  simp only [clsNonWsNonBackslash, clsNotNewline, nonWs, List.cons_append, List.head?_cons, Option.some.injEq,
    exists_eq_left', List.mem_cons, List.mem_append, List.not_mem_nil, or_false, Bool.and_eq_true, Bool.not_eq_true',
    beq_eq_false_iff_ne, not_or]
  constructor
  · rintro ⟨h1, ⟨h2, h3⟩, h4, h5, h6⟩
    exact ⟨h1, ⟨h2, h3⟩, fun x hx e => h5 (e ▸ hx)⟩
  · rintro ⟨h1, ⟨h2, h3⟩, h4⟩
    refine ⟨h1, ⟨h2, h3⟩, ?_, fun h => h4 _ h rfl, ?_⟩
    · rintro rfl; revert h1; decide
    · rintro rfl; revert h2; decide

theorem flatMap_range_tail {β} (f : Nat → List β) (m : Nat) : ∀ n, (∀ k, m ≤ k → k < n → f k = []) → m ≤ n →
    (List.range n).flatMap f = (List.range m).flatMap f := by
  intro n
  induction n with
  | zero => intro _ h; have : m = 0 := by omega
            rw [this]
  | succ n ih =>
    intro h hm
    by_cases e : m = n + 1
    · rw [e]
    · rw [List.range_succ, List.flatMap_append, ih (fun k h1 h2 => h k h1 (by omega)) (by omega)]
      simp [h n (by omega) (by omega)]

theorem flatMap_range_ext {β} (f g : Nat → List β) (m n : Nat) (h : ∀ k, k < m → k < n → f k = g k)
    (h1 : ∀ k, n ≤ k → k < m → f k = []) (h2 : ∀ k, m ≤ k → k < n → g k = []) :
    (List.range m).flatMap f = (List.range n).flatMap g := by
  have e : ∀ a, a ≤ m → a ≤ n → (List.range a).flatMap f = (List.range a).flatMap g := by
    intro a ha hb
    rw [List.flatMap_def, List.flatMap_def]
    congr 1
    exact List.map_congr_left fun k hk => h k (by simp at hk; omega) (by simp at hk; omega)
  by_cases hmn : m ≤ n
  · rw [flatMap_range_tail g m n h2 hmn, e m (Nat.le_refl _) hmn]
  · rw [flatMap_range_tail f n m h1 (by omega), e n (by omega) (Nat.le_refl _)]

theorem takeWhile_length_iff {p : Char → Bool} {t : Str} {k : Nat} (h : k ≤ t.length) :
    k ≤ (t.takeWhile p).length ↔ ∀ x ∈ t.take k, p x = true := by
  induction t generalizing k with
  | nil => simp at h; subst h; simp
  | cons c t ih =>
    cases k with
    | zero => simp
    | succ k =>
      have := ih (k := k) (by simpa using h)
      by_cases hc : p c <;> simp [hc, this]

theorem filter_flatMap {α β} (p : α → Bool) (f : α → β) (l : List α) :
    (l.filter p).map f = l.flatMap fun a => if p a then [f a] else [] := by
  induction l with
  | nil => rfl
  | cons a l ih => by_cases h : p a <;> simp [h, ih]

theorem run_fieldName (t : Str) (cs : Caps) :
    reFieldName.run t cs = (nameLengths t).map fun n => (t.drop n, cs) := by
  cases t with
  | nil => simp [reFieldName, Re.run, nameLengths]
  | cons c t =>
    have e1 : List.range' 1 (c :: t).length = 1 :: (List.range t.length).map (· + 2) := by
      rw [List.length_cons, List.range'_succ, List.range'_eq_map_range]
      congr 1
      apply List.map_congr_left; intro a _; omega
    have key : (if nonWs c = true then [(t, cs)] else []).flatMap (fun r =>
          List.flatMap (fun r => (Re.cls clsNonWsNonBackslash).run r.1 r.2)
            ((Re.star false (Re.cls clsNotNewline)).run r.1 r.2)) =
        ((List.range t.length).filter fun k => isName ((c :: t).take (k + 2))).map
          fun k => (t.drop (k + 1), cs) := by
      have hF : ∀ k, k < t.length → (FieldName ((c :: t).take (k + 2)) ↔
          nonWs c = true ∧ clsNonWsNonBackslash (t.getD k ' ') = true ∧ k ≤ (t.takeWhile clsNotNewline).length) := by
        intro k hk
        have e : (c :: t).take (k + 2) = c :: t.take k ++ [t.getD k ' '] := by
          rw [List.take_succ_cons, List.take_succ_eq_append_getElem hk]
          simp [List.getD_eq_getElem?_getD, List.getElem?_eq_getElem hk]
        rw [e, FieldName_more, takeWhile_length_iff (Nat.le_of_lt hk)]
      rw [filter_flatMap]
      cases hc : nonWs c with
      | false =>
        simp only [Bool.false_eq_true, if_false, List.flatMap_nil]
        symm
        rw [List.flatMap_eq_nil_iff]
        intro k hk
        have : ¬ FieldName ((c :: t).take (k + 2)) := fun h => by
          have := ((hF k (by simpa using hk)).1 h).1; rw [hc] at this; cases this
        exact if_neg (by rwa [isName_iff])
      | true =>
        simp only [if_true, List.flatMap_cons, List.flatMap_nil, List.append_nil, run_star_cls_lazy, List.flatMap_map]
        have hg : ∀ k, k < t.length → (Re.cls clsNonWsNonBackslash).run (t.drop k) cs =
            if clsNonWsNonBackslash (t.getD k ' ') = true then [(t.drop (k + 1), cs)] else [] := by
          intro k hk
          rw [List.drop_eq_getElem_cons hk]
          simp [Re.run, List.getD_eq_getElem?_getD, List.getElem?_eq_getElem hk]
        have hl := (List.takeWhile_sublist (l := t) clsNotNewline).length_le
        apply flatMap_range_ext
        · intro k h1 h2
          rw [hg k h2]
          have := hF k h2
          rw [hc] at this
          by_cases h3 : clsNonWsNonBackslash (t.getD k ' ') = true
          · rw [if_pos h3, if_pos ((isName_iff _).2 (this.2 ⟨rfl, h3, by omega⟩))]
          · rw [if_neg h3, if_neg (by simp only [isName_iff, this]; exact fun h => h3 h.2.1)]
        · intro k h1 h2
          rw [List.drop_eq_nil_of_le h1]; rfl
        · intro k h1 h2
          have := hF k h2
          rw [if_neg (by simp only [isName_iff, this]; omega)]
    simp only [reFieldName, Re.run, nameLengths, e1] at key ⊢
    rw [key, List.filter_cons]
    have h1 : isName ((c :: t).take 1) = true ↔ clsNonWsNonBackslash c = true := by
      rw [isName_iff]; exact FieldName_one c
    by_cases hc : clsNonWsNonBackslash c = true
    · rw [if_pos hc, if_pos (h1.2 hc)]
      simp [List.filter_map, Function.comp_def]
    · rw [if_neg hc, if_neg (fun h => hc (h1.1 h))]
      simp [List.filter_map, Function.comp_def]

theorem mem_nameLengths {t : Str} {n : Nat} : n ∈ nameLengths t ↔ n ≤ t.length ∧ FieldName (t.take n) := by
  unfold nameLengths
  simp only [List.mem_filter, List.mem_range'_1, isName_iff]
  constructor
  · rintro ⟨⟨_, h2⟩, h3⟩; exact ⟨by omega, h3⟩
  · rintro ⟨h1, h2⟩
    refine ⟨⟨?_, by omega⟩, h2⟩
    cases n with
    | zero => obtain ⟨⟨a, h, _⟩, _⟩ := h2; simp at h
    | succ n => omega

theorem nameLengths_sorted (t : Str) : (nameLengths t).Pairwise (· < ·) :=
  (List.pairwise_lt_range' (s := 1) (n := t.length)).filter _

theorem drop_takeWhile (p : Char → Bool) (s : Str) : s.drop (s.takeWhile p).length = s.dropWhile p := by
  induction s with
  | nil => rfl
  | cons c s ih => by_cases h : p c <;> simp [h, ih]

/-- The rest of an option line behind the name: a colon and then nothing or a space. -/
def FieldEnd (s : Str) : Prop := ∃ after, s = ':' :: after ∧ (after = [] ∨ after.head? = some ' ')

theorem run_fieldEnd (s : Str) (cs : Caps) : (reFieldEnd.run s cs ≠ [] ↔ FieldEnd s) ∧
    ∀ q, (reFieldEnd.run s cs).head? = some q → q.2 = cs ∧ ∃ after, s = ':' :: after ∧ trim q.1 = trim after := by
  unfold reFieldEnd FieldEnd Re.plus Re.chr
  cases s with
  | nil => simp [Re.run]
  | cons c s =>
    by_cases hc : c = ':'
    · subst hc
      cases s with
      | nil => simp [Re.run]
      | cons d s =>
        by_cases hd : d = ' '
        · subst hd
          have e : (Re.cls (· == ' ')).run (' ' :: s) cs = [(s, cs)] := by simp [Re.run]
          simp only [Re.run, beq_self_eq_true, if_true, List.flatMap_cons, List.flatMap_nil, List.append_nil,
            List.isEmpty_cons, Bool.false_eq_true, if_false]
          have h := run_star_cls (· == ' ') s cs
          simp only [Re.run] at h
          rw [h]
          constructor
          · simp [List.range_succ]
          · intro q hq
            rw [List.range_succ, List.reverse_append, List.reverse_singleton, List.singleton_append, List.map_cons,
              List.head?_cons] at hq
            cases hq
            refine ⟨rfl, _, rfl, ?_⟩
            simp only [trim]
            congr 1
            have hw : ∀ l : Str, (∀ x ∈ l, isWs x = true) → ∀ r, trimStart (l ++ r) = trimStart r := by
              intro l hl r
              unfold trimStart
              rw [List.dropWhile_append_of_pos hl]
            have := hw (' ' :: s.takeWhile (· == ' ')) (by
              intro x hx
              rcases List.mem_cons.1 hx with rfl | hx
              · decide
              · have := mem_takeWhile _ _ _ hx
                rw [beq_iff_eq] at this; subst this; decide) (s.drop (s.takeWhile (· == ' ')).length)
            rw [← this, List.cons_append]
            congr 2
            rw [drop_takeWhile]
            exact List.takeWhile_append_dropWhile
        · simp [Re.run, hd]
    · simp [Re.run, hc]

/-- Everything behind the indentation. -/
theorem run_fieldBody (t : Str) (cs : Caps) :
    let R := (Re.seq (.chr ':') (.seq (.cap .g2 reFieldName) reFieldEnd)).run t cs
    (R ≠ [] ↔ ∃ name after, t = ':' :: name ++ ':' :: after ∧ FieldName name ∧ (after = [] ∨ after.head? = some ' ')) ∧
    ∀ q, R.head? = some q → ∃ name after, t = ':' :: name ++ ':' :: after ∧ FieldName name ∧
      (after = [] ∨ after.head? = some ' ') ∧ q.2 = (.g2, name) :: cs ∧ trim q.1 = trim after ∧
      ∀ name' after', t = ':' :: name' ++ ':' :: after' → FieldName name' → (after' = [] ∨ after'.head? = some ' ') →
        name.length ≤ name'.length := by
  intro R
  cases t with
  | nil => simp [R, Re.run, Re.chr]
  | cons c t =>
    by_cases hc : c = ':'
    · subst hc
      have eR : R = (nameLengths t).flatMap fun n => reFieldEnd.run (t.drop n) ((.g2, t.take n) :: cs) := by
        simp only [R, Re.run, Re.chr, beq_self_eq_true, if_true, List.flatMap_cons, List.flatMap_nil, List.append_nil,
          run_fieldName, List.map_map, List.flatMap_map, Function.comp_def]
        rw [List.flatMap_def, List.flatMap_def]
        congr 1
        refine List.map_congr_left fun n hn => ?_
        have := (mem_nameLengths.1 hn).1
        congr 3
        rw [List.length_drop]
        congr 1
        omega
      have split : ∀ name after : Str, t = name ++ ':' :: after → FieldName name →
          (after = [] ∨ after.head? = some ' ') → name.length ∈ nameLengths t ∧ FieldEnd (t.drop name.length) := by
        rintro name after rfl h2 h3
        refine ⟨mem_nameLengths.2 ⟨by simp, by simpa using h2⟩, after, by simp, h3⟩
      rw [eR]
      constructor
      · constructor
        · intro h
          obtain ⟨n, hn, h1⟩ : ∃ n ∈ nameLengths t, reFieldEnd.run (t.drop n) ((.g2, t.take n) :: cs) ≠ [] := by
            refine Classical.byContradiction fun hcon => ?_
            exact h (List.flatMap_eq_nil_iff.2 fun n hn => Classical.byContradiction fun h2 => hcon ⟨n, hn, h2⟩)
          obtain ⟨after, h2, h3⟩ := (run_fieldEnd _ _).1.1 h1
          refine ⟨t.take n, after, ?_, (mem_nameLengths.1 hn).2, h3⟩
          rw [List.cons_append, ← h2, List.take_append_drop]
        · rintro ⟨name, after, h1, h2, h3⟩
          rw [List.cons_append, List.cons.injEq] at h1
          obtain ⟨h4, h5⟩ := split name after h1.2 h2 h3
          intro hcon
          exact (run_fieldEnd _ _).1.2 h5 (List.flatMap_eq_nil_iff.1 hcon _ h4)
      · intro q hq
        rw [List.head?_flatMap, List.findSome?_eq_some_iff] at hq
        obtain ⟨l1, n, l2, h1, h2, h3⟩ := hq
        have hn : n ∈ nameLengths t := by rw [h1]; simp
        have hne : reFieldEnd.run (t.drop n) ((.g2, t.take n) :: cs) ≠ [] := by
          intro e; rw [e] at h2; cases h2
        obtain ⟨k1, after, k2, k3⟩ := (run_fieldEnd _ _).2 q h2
        obtain ⟨after', k2', k4⟩ := (run_fieldEnd _ _).1.1 hne
        have : after' = after := by rw [k2] at k2'; cases k2'; rfl
        subst this
        refine ⟨t.take n, after', ?_, (mem_nameLengths.1 hn).2, k4, k1, k3, ?_⟩
        · rw [List.cons_append, ← k2, List.take_append_drop]
        · intro name' after'' e1 e2 e3
          rw [List.cons_append, List.cons.injEq] at e1
          obtain ⟨h4, h5⟩ := split name' after'' e1.2 e2 e3
          have hl : (t.take n).length = n := by rw [List.length_take]; have := (mem_nameLengths.1 hn).1; omega
          rw [hl]
          rw [h1] at h4
          rcases List.mem_append.1 h4 with h6 | h6
          · have := h3 _ h6
            rw [List.head?_eq_none_iff] at this
            exact absurd this ((run_fieldEnd _ _).1.2 h5)
          · have hs := nameLengths_sorted t
            rw [h1, List.pairwise_append] at hs
            rcases List.mem_cons.1 h6 with h7 | h7
            · omega
            · have := (List.pairwise_cons.1 hs.2.1).1 _ h7; omega
    · have : R = [] := by simp [R, Re.run, Re.chr, hc]
      rw [this]
      refine ⟨⟨fun h => absurd rfl h, ?_⟩, fun q hq => by cases hq⟩
      rintro ⟨name, after, h, _⟩
      rw [List.cons_append, List.cons.injEq] at h
      exact absurd h.1 hc

theorem split_indent {ind t : Str} (h : ∀ c ∈ ind, isWs c = true) :
    (ind ++ ':' :: t).takeWhile isWs = ind ∧ (ind ++ ':' :: t).dropWhile isWs = ':' :: t := by
  have hc : isWs ':' = false := by decide
  constructor
  · rw [List.takeWhile_append_of_pos h]; simp [hc]
  · rw [List.dropWhile_append_of_pos h]; simp [hc]

/-- The first way to match `reFieldMarker`: the indentation is all of the white space. -/
theorem run_fieldMarker (line : Str) : reFieldMarker.run line [] =
    (Re.seq (.chr ':') (.seq (.cap .g2 reFieldName) reFieldEnd)).run (line.dropWhile isWs)
      [(.g1, line.takeWhile isWs)] := by
  have e : reFieldMarker.run line [] = ((Re.star true (.cls isWs)).run line []).flatMap fun q =>
      (Re.seq (.chr ':') (.seq (.cap .g2 reFieldName) reFieldEnd)).run q.1
        ((Grp.g1, line.take (line.length - q.1.length)) :: q.2) := by
    rw [reFieldMarker_eq]
    exact List.flatMap_map ..
  rw [e, run_star_cls, List.flatMap_map]
  have hl := (List.takeWhile_sublist (l := line) isWs).length_le
  rw [List.range_succ, List.reverse_append, List.reverse_singleton, List.singleton_append, List.flatMap_cons]
  have : (List.range (line.takeWhile isWs).length).reverse.flatMap (fun x =>
      (Re.seq (.chr ':') (.seq (.cap .g2 reFieldName) reFieldEnd)).run (line.drop x)
        [(Grp.g1, line.take (line.length - (line.drop x).length))]) = [] := by
    refine List.flatMap_eq_nil_iff.2 fun k hk => ?_
    simp only [List.mem_reverse, List.mem_range] at hk
    have h1 : isWs line[k] = true := by
      have h2 : (line.takeWhile isWs)[k] = line[k] := (List.takeWhile_prefix isWs).getElem hk
      rw [← h2]
      exact mem_takeWhile _ _ _ (List.getElem_mem hk)
    have h2 : line[k] ≠ ':' := by
      intro e; rw [e] at h1; revert h1; decide
    have h3 : ∀ cs, (Re.chr ':').run (line.drop k) cs = [] := by
      intro cs
      rw [List.drop_eq_getElem_cons (by omega)]
      exact if_neg (by simpa using h2)
    rw [Re.run, h3]; rfl
  rw [this, List.append_nil, drop_takeWhile]
  congr 3
  have := List.takeWhile_append_dropWhile (p := isWs) (l := line)
  have h3 : line.length - (line.dropWhile isWs).length = (line.takeWhile isWs).length := by
    have := congrArg List.length this; rw [List.length_append] at this; omega
  rw [h3]
  exact (List.prefix_iff_eq_take.1 (List.takeWhile_prefix isWs)).symm

/-- `reFieldMarker` matches the option lines. -/
theorem isMatch_field (line : Str) : reFieldMarker.isMatch line = true ↔ IsField line := by
  have h := (run_fieldBody (line.dropWhile isWs) [(.g1, line.takeWhile isWs)]).1
  unfold Re.isMatch
  rw [run_fieldMarker]
  simp only [Bool.not_eq_true', List.isEmpty_eq_false_iff]
  rw [h]
  constructor
  · rintro ⟨name, after, h1, h2, h3⟩
    refine ⟨line.takeWhile isWs, name, after, ?_, fun c hc => mem_takeWhile _ _ _ hc, h2, h3⟩
    rw [List.append_assoc, ← h1, List.takeWhile_append_dropWhile]
  · rintro ⟨ind, name, after, rfl, h1, h2, h3⟩
    refine ⟨name, after, ?_, h2, h3⟩
    rw [List.append_assoc]
    exact (split_indent h1).2

/-- What `reFieldMarker` captures. -/
theorem captures_field {line : Str} {m : Match} (h : reFieldMarker.captures line = some m) :
    ∃ after, FieldLine line (m.getD .g1) (m.getD .g2) after ∧ trim (line.drop m.whole.length) = trim after := by
  obtain ⟨q, hq, rfl⟩ : ∃ q, (reFieldMarker.run line []).head? = some q ∧
      m = ⟨line.take (line.length - q.1.length), q.1, q.2⟩ := by
    unfold Re.captures at h
    split at h
    · cases h
    · rename_i q _ e; cases h; exact ⟨q, by rw [e]; rfl, rfl⟩
  have hsuf : ∃ w, line = w ++ q.1 := Re.run_suffix reFieldMarker line [] q (List.mem_of_mem_head? (by rw [hq]; rfl))
  rw [run_fieldMarker] at hq
  obtain ⟨name, after, h1, h2, h3, h4, h5, h6⟩ :=
    (run_fieldBody (line.dropWhile isWs) [(.g1, line.takeWhile isWs)]).2 q hq
  refine ⟨after, ?_, ?_⟩
  · have g1 : (Match.mk (line.take (line.length - q.1.length)) q.1 q.2).getD .g1 = line.takeWhile isWs := by
      simp [Match.getD, Match.get, h4]
    have g2 : (Match.mk (line.take (line.length - q.1.length)) q.1 q.2).getD .g2 = name := by
      simp [Match.getD, Match.get, h4]
    rw [g1, g2]
    refine ⟨⟨?_, fun c hc => mem_takeWhile _ _ _ hc, h2, h3⟩, ?_⟩
    · rw [List.append_assoc, ← h1, List.takeWhile_append_dropWhile]
    · rintro ind' name' after' ⟨e1, e2, e3, e4⟩
      refine h6 name' after' ?_ e3 e4
      rw [e1, List.append_assoc]
      exact (split_indent e2).2
  · obtain ⟨w, hw⟩ := hsuf
    rw [← h5]
    congr 1
    have : (line.take (line.length - q.1.length)).length = w.length := by
      rw [hw]; simp
    rw [this, hw]; simp

end Rustla
