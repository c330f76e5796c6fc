import Verif.Spec.Tables
import Verif.Model.Directives
import Verif.Props.Enumerated
import Verif.Lemmas.Leaves
/-! # The widths of the columns of list tables -/
namespace Rustla
open Spec

theorem cls_isDigit {c : Char} (h : c.isDigit = true) : clsDigit c = true := by
  simpa [clsDigit, Char.isDigit, Char.le_def] using h

theorem clsDigit_plain {c : Char} (h : clsDigit c = true) : isWs c = false ∧ c ≠ '.' ∧ c ≠ '+' ∧ c ≠ 'a' := by
  have hd := isDigit_cls h
  refine ⟨alnum_not_ws (by simp [Char.isAlphanum, hd]), ?_, ?_, ?_⟩ <;> rintro rfl <;> revert h <;> decide

/-- The characters of a number. -/
theorem number_chars {n : Number} (h : n.Ok) : ∃ c t, n.text = c :: t ∧ clsDigit c = true ∧ ∀ x ∈ n.text, isWs x = false := by
  obtain ⟨c, t, e⟩ := List.exists_cons_of_ne_nil (decimal_ne_nil n.whole)
  refine ⟨c, t ++ (if n.fraction = [] then [] else '.' :: n.fraction), by simp [Number.text, e], decimal_clsDigit n.whole c (by simp [e]), ?_⟩
  intro x hx
  rcases List.mem_append.mp hx with hx | hx
  · exact (clsDigit_plain (decimal_clsDigit n.whole x hx)).1
  · split at hx
    · cases hx
    · rcases List.mem_cons.mp hx with rfl | hx
      · decide
      · exact (clsDigit_plain (cls_isDigit (h x hx))).1

theorem takeWhile_point {α : Type} {p : α → Bool} {a b : List α} {x : α} (h : ∀ y ∈ a, p y = true) (hx : p x = false) :
    (a ++ x :: b).takeWhile p = a ∧ (a ++ x :: b).dropWhile p = x :: b := by
  induction a with
  | nil => simp [hx]
  | cons y a ih =>
    obtain ⟨h1, h2⟩ := ih fun z hz => h z (by simp [hz])
    simp [h y (by simp), h1, h2]

theorem takeWhile_pointless {α : Type} {p : α → Bool} {a : List α} (h : ∀ y ∈ a, p y = true) :
    a.takeWhile p = a ∧ a.dropWhile p = [] := by
  induction a with
  | nil => simp
  | cons y a ih =>
    obtain ⟨h1, h2⟩ := ih fun z hz => h z (by simp [hz])
    simp [h y (by simp), h1, h2]

/-- A number is read. -/
theorem parseFloat_number {n : Number} (h : n.Ok) : parseFloat n.text = some n.value := by
  obtain ⟨c, t, e, hc, _⟩ := number_chars h
  have hd := decimal_clsDigit n.whole
  have hplus : ¬ (n.text.head? == some '+') = true := by
    rw [e]
    simp only [List.head?_cons, beq_iff_eq, Option.some.injEq]
    exact (clsDigit_plain hc).2.2.1
  have hpre : ∀ y ∈ decimal n.whole, (y != '.') = true := by
    intro y hy
    simpa using (clsDigit_plain (hd y hy)).2.1
  have hcount : (decimal n.whole).count '.' = 0 := List.count_eq_zero.mpr fun hm => (clsDigit_plain (hd _ hm)).2.1 rfl
  have hcount2 : n.fraction.count '.' = 0 := List.count_eq_zero.mpr fun hm => (clsDigit_plain (cls_isDigit (h _ hm))).2.1 rfl
  have hany : n.text.any clsDigit = true := by rw [e]; simp [hc]
  have hall : n.text.all (fun c => clsDigit c || c == '.') = true := by
    rw [List.all_eq_true]
    intro x hx
    rcases List.mem_append.mp hx with hx | hx
    · simp [hd x hx]
    · split at hx
      · cases hx
      · rcases List.mem_cons.mp hx with rfl | hx
        · decide
        · simp [cls_isDigit (h x hx)]
  have hone : n.text.count '.' ≤ 1 := by
    unfold Number.text
    rw [List.count_append, hcount]
    split
    · simp
    · simp [hcount2]
  unfold parseFloat
  simp only [if_neg hplus, hall, hany, hone, decide_true, Bool.and_self, if_true, Option.some.injEq]
  unfold parseF64 Number.value Number.text
  by_cases hf : n.fraction = []
  · obtain ⟨h1, h2⟩ := takeWhile_pointless hpre
    simp only [hf, if_true, List.append_nil, h1, h2, digitsVal_decimal]
    rfl
  · obtain ⟨h1, h2⟩ := takeWhile_point (b := n.fraction) hpre (x := '.') (by decide)
    simp only [hf, if_false, h1, h2, digitsVal_decimal, List.drop_succ_cons, List.drop_zero]
    rfl

theorem splitWs_step {w t cur : Str} (h : ∀ c ∈ w, isWs c = false) : splitWsAux (w ++ t) cur = splitWsAux t (w.reverse ++ cur) := by
  induction w generalizing cur with
  | nil => rfl
  | cons c w ih =>
    rw [List.cons_append]
    conv => lhs; unfold splitWsAux
    simp only [h c (by simp), Bool.false_eq_true, if_false]
    rw [ih fun x hx => h x (by simp [hx])]
    simp

/-- Words with single spaces between them. -/
theorem splitWs_words {w : Str} (hw : w ≠ [] ∧ ∀ c ∈ w, isWs c = false) : ∀ {ws : List Str}, (∀ w ∈ ws, w ≠ [] ∧ ∀ c ∈ w, isWs c = false) →
    splitWs (w ++ (ws.map fun w => ' ' :: w).flatten) = w :: ws := by
  intro ws
  induction ws generalizing w with
  | nil =>
    intro _
    unfold splitWs
    rw [splitWs_step hw.2]
    unfold splitWsAux
    simp [hw.1]
  | cons v ws ih =>
    intro h
    have hih := ih (h v (by simp)) fun x hx => h x (by simp [hx])
    unfold splitWs at hih ⊢
    rw [splitWs_step hw.2]
    simp only [List.map_cons, List.flatten_cons, List.cons_append]
    conv => lhs; unfold splitWsAux
    simp only [show isWs ' ' = true by decide, if_true, List.append_nil, List.isEmpty_reverse, List.reverse_reverse]
    rw [if_neg (by simpa using hw.1), hih]

theorem trim_head {c : Char} (h : isWs c = false) (t : Str) : (trim (c :: t)).head? = some c := by
  unfold trim
  have h1 : trimStart (c :: t) = c :: t := by simp [trimStart, h]
  rw [h1]
  unfold trimEnd
  rw [List.reverse_cons, List.dropWhile_append]
  split
  · simp [h]
  · simp

/-- The widths that the option of a table gives. -/
def Spec.Widths.read : Widths → Option TableColWidths
  | .same => none
  | .auto => some .Auto
  | .given n ns => some (.Columns (n.value :: ns.map Number.value))

/-- The widths are read. -/
theorem tableWidths_read {W : Widths} (h : W.Ok) : tableWidths W.text = .ok W.read := by
  cases W with
  | same => rfl
  | auto => rfl
  | given n ns =>
    obtain ⟨h1, h2⟩ := h
    have hword : ∀ n : Number, n.Ok → n.text ≠ [] ∧ ∀ c ∈ n.text, isWs c = false := by
      intro n hn
      obtain ⟨c, t, e, _, hw⟩ := number_chars hn
      exact ⟨by rw [e]; simp, hw⟩
    have hsplit := splitWs_words (hword n h1) (ws := ns.map Number.text) (by
      intro w hw
      obtain ⟨x, hx, rfl⟩ := List.mem_map.mp hw
      exact hword x (h2 x hx))
    rw [List.map_map] at hsplit
    have hne : trim (n.text ++ (ns.map fun n => ' ' :: n.text).flatten) ≠ str! "auto" := by
      obtain ⟨c, t, e, hc, _⟩ := number_chars h1
      rw [e, List.cons_append]
      intro ht
      have hh := trim_head (clsDigit_plain hc).1 (t ++ (ns.map fun n => ' ' :: n.text).flatten)
      rw [ht] at hh
      exact (clsDigit_plain hc).2.2.2 (Option.some.inj hh).symm
    have hmap : (n.text :: ns.map Number.text).mapM parseFloat = some (n.value :: ns.map Number.value) := by
      have : ∀ ms : List Number, (∀ m ∈ ms, m.Ok) → (ms.map Number.text).mapM parseFloat = some (ms.map Number.value) := by
        intro ms
        induction ms with
        | nil => intro _; rfl
        | cons m ms ih =>
          intro hm
          rw [List.map_cons, List.mapM_cons, parseFloat_number (hm m (by simp)), ih fun x hx => hm x (by simp [hx])]
          rfl
      exact this (n :: ns) (by simpa using ⟨h1, h2⟩)
    unfold tableWidths Widths.text
    simp only
    rw [if_neg hne]
    have e : (ns.map fun n => ' ' :: n.text).flatten = (ns.map ((fun w => ' ' :: w) ∘ Number.text)).flatten := rfl
    rw [e, hsplit, hmap]
    rfl

theorem tableAlign_sides (a : Option Str) : tableAlign a = a.bind (fromTable tableSides) := by
  cases a with
  | none => rfl
  | some t =>
    show (if t = str! "left" then _ else _) = fromTable tableSides t
    unfold fromTable tableSides
    by_cases h1 : t = str! "left"
    · subst h1; rfl
    · by_cases h2 : t = str! "center"
      · subst h2; rfl
      · by_cases h3 : t = str! "right"
        · subst h3; rfl
        · simp [h1, h2, h3, eq_comm (b := t)]

theorem tableWidth_extent (d : Dir) : tableWidth (d.get (str! "width")) = d.extent := by
  unfold tableWidth Dir.extent Dir.length
  cases d.get (str! "width") with
  | none => rfl
  | some w =>
    simp only [Option.bind_some]
    cases strToLength w <;> rfl

end Rustla
