import Verif.Lemmas.Boxes
import Verif.Lemmas.Asides
import Verif.Props.Enumerated
import Verif.Lemmas.Counters
/-! # The lines of blocks -/
namespace Rustla
open Spec

/-- A line that starts a block at an indentation. -/
structure Front (i : Nat) (l : Str) : Prop where
  visible : ∃ c t, l = spaces i ++ c :: t ∧ isWs c = false
  notLine : reLine.isMatch l = false

theorem Front.not_blank {i : Nat} {l : Str} (h : Front i l) : isBlank l = false := by
  obtain ⟨c, t, rfl, hc⟩ := h.visible
  exact indented_not_blank hc i

theorem Front.indent {i : Nat} {l : Str} (h : Front i l) : indentOf l = i := by
  obtain ⟨c, t, rfl, hc⟩ := h.visible
  exact indentOf_indented hc i

theorem Front.ends {i j : Nat} {l : Str} {ls : List Str} (h : Front i l) (hj : i < j) : Ends j (l :: ls) := by
  intro x hx
  obtain rfl : l = x := by simpa using hx
  obtain ⟨c, t, e, hc⟩ := h.visible
  exact .inr ⟨⟨i, c, t, hj, e, hc⟩, h.notLine⟩

theorem Front.low {i j : Nat} {l : Str} {ls : List Str} (h : Front i l) (hj : i < j) : Low j (l :: ls) := by
  intro x hx
  obtain rfl : l = x := by simpa using hx
  exact ⟨h.not_blank, by rw [h.indent]; exact hj⟩

theorem bullet_cls {b : Char} (hb : b ∈ ['*', '+', '-']) : clsBullet b = true ∧ isWs b = false := by
  simp only [List.mem_cons, List.not_mem_nil, or_false] at hb
  rcases hb with rfl | rfl | rfl <;> decide

theorem front_text {l : Str} (h : TextLine l) (i : Nat) : Front i (indentLine i l) := by
  refine ⟨?_, h.indented_not_line i⟩
  obtain ⟨c, t, rfl, hc⟩ := h.cons
  exact ⟨c, t, rfl, hc⟩

theorem front_bullet {b : Char} {l : Str} (hb : b ∈ ['*', '+', '-']) (h : TextLine l) (i : Nat) : Front i (bulletLine b i l) :=
  ⟨⟨b, ' ' :: l, rfl, (bullet_cls hb).2⟩, bulletLine_not_line i h⟩

theorem front_dots {c : Char} {t : Str} (hc : isWs c = false) (i : Nat) : Front i (indentLine i (str! ".. " ++ c :: t)) := by
  refine ⟨⟨'.', '.' :: ' ' :: c :: t, rfl, by decide⟩, ?_⟩
  cases i with
  | succ i => exact spaces_not_line
  | zero =>
    cases e : reLine.isMatch (indentLine 0 (str! ".. " ++ c :: t)) with
    | false => rfl
    | true =>
      exfalso
      obtain ⟨a, n, m, ha, h⟩ := line_ruled e
      have h' : '.' :: '.' :: ' ' :: c :: t = List.replicate (n + 1) a ++ List.replicate m ' ' := h
      have hmem : ∀ x ∈ '.' :: '.' :: ' ' :: c :: t, x = a ∨ x = ' ' := by
        rw [h']; intro x hx
        rcases List.mem_append.mp hx with hx | hx
        · exact .inl (List.eq_of_mem_replicate hx)
        · exact .inr (List.eq_of_mem_replicate hx)
      have ha' : '.' = a := by
        rcases hmem '.' (by simp) with h | h
        · exact h
        · exact absurd h (by decide)
      subst ha'
      have hc' : c = '.' := by
        rcases hmem c (by simp) with h | h
        · exact h
        · subst h; exact absurd hc (by decide)
      subst hc'
      -- a full stop behind a space
      have hn : n = 1 := by
        match n, h' with
        | 0, h' =>
          have := congrArg (·[1]?) h'
          cases m <;> simp [List.replicate_succ] at this
        | 1, _ => rfl
        | n + 2, h' => simp [List.replicate_succ] at h'
      subst hn
      simp only [List.replicate_succ, List.replicate_zero, List.cons_append, List.nil_append, List.cons.injEq, true_and] at h'
      have hin : '.' ∈ List.replicate m ' ' := by rw [← h']; simp
      exact absurd (List.eq_of_mem_replicate hin) (by decide)

theorem front_dir {d : Dir} (h : d.Ok) (i : Nat) : Front i (indentLine i d.marker) := by
  obtain ⟨a, n, ha, e⟩ := h.dots i
  rw [e]
  exact front_dots (c := a) (t := n) (alnum_not_ws (alnum_of_alpha ha)) i

theorem front_note (N : Note) (l : Str) (i : Nat) : Front i (indentLine i (N.text ++ l)) := by
  have : N.text ++ l = str! ".. " ++ '[' :: (N.label ++ str! "] " ++ l) := by simp [Note.text]
  rw [this]
  exact front_dots (by decide) i

theorem leaf_front {L : Leaf} (h : L.Ok) (i : Nat) : ∃ l ls, L.lines i = l :: ls ∧ Front i l := by
  cases L with
  | comment l ls =>
    obtain ⟨c, t, rfl, hc⟩ := Inset.cons h.1
    exact ⟨_, _, rfl, front_dots hc i⟩
  | image d => exact ⟨_, _, rfl, front_dir h.1 i⟩
  | code d gap ls => exact ⟨_, _, rfl, front_dir h.1 i⟩
  | listing d gap ls tail => exact ⟨_, _, rfl, front_dir h.1 i⟩
  | formula d => exact ⟨_, _, rfl, front_dir h.1 i⟩
  | formulas d gap g more => exact ⟨_, _, rfl, front_dir h.1 i⟩
  | input d => exact ⟨_, _, rfl, front_dir h.1 i⟩
  | output d => exact ⟨_, _, rfl, front_dir h.1 i⟩

theorem box_dir {X : Box} (h : X.Ok) : X.dir.Ok := by cases X <;> exact h.1

/-- A line with two different visible characters is no line below a title. -/
theorem two_not_line {i : Nat} {l : Str} {x y : Char} (hx : x ∈ l) (hy : y ∈ l) (hxw : isWs x = false) (hyw : isWs y = false) (hxy : x ≠ y) :
    reLine.isMatch (indentLine i l) = false := by
  cases i with
  | succ i => exact spaces_not_line
  | zero =>
    cases e : reLine.isMatch (indentLine 0 l) with
    | false => rfl
    | true =>
      exfalso
      obtain ⟨a, n, m, _, h⟩ := line_ruled e
      have h : l = List.replicate (n + 1) a ++ List.replicate m ' ' := by simpa [indentLine] using h
      have hmem : ∀ z ∈ l, isWs z = false → z = a := by
        rw [h]; intro z hz hw
        rcases List.mem_append.mp hz with hz | hz
        · exact List.eq_of_mem_replicate hz
        · rw [List.eq_of_mem_replicate hz] at hw; exact absurd hw (by decide)
      exact hxy ((hmem x hx hxw).trans (hmem y hy hyw).symm)

/-- The text of a mark starts with something visible. -/
theorem tag_cons {m : Tag} {g : List Str} (h : m.Ok g) : ∃ x t, m.text = x :: t ∧ isWs x = false := by
  cases m with
  | bullet b => exact ⟨b, _, rfl, (bullet_cls h).2⟩
  | number d n =>
    obtain ⟨c, t, e, hc⟩ := counter_cons h
    cases d with
    | Parens => exact ⟨'(', _, rfl, by decide⟩
    | RParen => exact ⟨c, t ++ [')'] ++ [' '], by simp [Tag.text, numeral, e], count_ws hc⟩
    | Period => exact ⟨c, t ++ ['.'] ++ [' '], by simp [Tag.text, numeral, e], count_ws hc⟩
  | field name w => exact ⟨':', _, rfl, by decide⟩

theorem front_tag {m : Tag} {l : Str} {g : List Str} (hm : m.Ok g) (h : TextLine l) (i : Nat) : Front i (indentLine i (m.text ++ l)) := by
  refine ⟨?_, ?_⟩
  · obtain ⟨x, t, e, hx⟩ := tag_cons hm
    exact ⟨x, t ++ l, by rw [e]; rfl, hx⟩
  · cases m with
    | bullet b => exact bulletLine_not_line i h
    | number d n =>
      obtain ⟨c, t, e, hc⟩ := counter_cons hm
      have hne : ∀ y, (y ≠ '#' ∧ y.isAlphanum = false) → c ≠ y := fun y hy => count_ne hc hy
      cases d with
      | Parens => exact two_not_line (x := c) (y := '(') (by simp [Tag.text, numeral, e]) (by simp [Tag.text, numeral]) (count_ws hc) (by decide) (hne _ (by decide))
      | RParen => exact two_not_line (x := c) (y := ')') (by simp [Tag.text, numeral, e]) (by simp [Tag.text, numeral]) (count_ws hc) (by decide) (hne _ (by decide))
      | Period => exact two_not_line (x := c) (y := '.') (by simp [Tag.text, numeral, e]) (by simp [Tag.text, numeral]) (count_ws hc) (by decide) (hne _ (by decide))
    | field name w =>
      obtain ⟨_, ⟨⟨⟨c, hc, hw⟩, _⟩, _⟩, ⟨hcolon, _⟩, _⟩ := hm
      have hin : c ∈ piecesSource name := List.mem_of_mem_head? (by rw [hc]; rfl)
      exact two_not_line (x := c) (y := ':') (by simp [Tag.text, hin]) (by simp [Tag.text]) hw (by decide) (by rintro rfl; exact hcolon hin)

theorem items_front {I : Items} (h : I.Ok) (hne : I ≠ .nil) (i : Nat) :
    ∃ l ls, I.lines i = l :: ls ∧ Front i l := by
  cases I with
  | nil => exact absurd rfl hne
  | item m g ps gap body rest =>
    obtain ⟨hm, ⟨hg, hl, _⟩, _⟩ := h
    cases g with
    | nil => exact absurd rfl hg
    | cons l g => exact ⟨_, _, rfl, front_tag hm hl.1.toTextLine i⟩

theorem front_target (t : Target) (i : Nat) : Front i (indentLine i t.line) := by
  have : t.line = str! ".. " ++ ('_' :: (t.name ++ [':'])) := by simp [Target.line]
  rw [this]
  exact front_dots (by decide) i

theorem anchor_front {ts : List Target} (h : ts ≠ []) (i : Nat) (rest : List Str) : ∃ l ls, targetsAt i ts ++ rest = l :: ls ∧ Front i l := by
  obtain ⟨t, ts, rfl⟩ := List.exists_cons_of_ne_nil h
  exact ⟨_, _, rfl, front_target t i⟩

theorem part_front {X : Part} (h : X.Ok) (hq : ¬ X.Bare) (i : Nat) : ∃ l ls, X.lines i = l :: ls ∧ Front i l := by
  cases X with
  | bare => exact absurd trivial hq
  | quiz d a gap es => exact ⟨_, _, rfl, front_dir h.1 i⟩
  | literal g ps gap V =>
    obtain ⟨⟨hg, hl, _⟩, _⟩ := h
    cases g with
    | nil => exact absurd rfl hg
    | cons l g => exact ⟨_, _, rfl, front_text hl.1.toTextLine i⟩
  | table T => exact ⟨_, _, rfl, front_dir h.dir i⟩
  | anchored ts L gap => exact anchor_front h.1 i _
  | anchoredText ts g ps gap => exact anchor_front h.1 i _
  | columns d gap xs => exact ⟨_, _, rfl, front_dir h.1 i⟩

theorem defs_front {D : Defs} (h : D.Ok) (hne : D ≠ .nil) (i : Nat) : ∃ l ls, D.lines i = l :: ls ∧ Front i l := by
  cases D with
  | nil => exact absurd rfl hne
  | term t body rest => exact ⟨_, _, rfl, front_text h.1.line.toTextLine i⟩

/-- What the lines of a sequence of blocks start with. -/
theorem blocks_front {B : Blocks} (h : B.Ok) (hne : B ≠ .nil) (hq : ¬ B.quoted) (i : Nat) : ∃ l ls, B.lines i = l :: ls ∧ Front i l := by
  cases B with
  | nil => exact absurd rfl hne
  | para g ps gap rest =>
    obtain ⟨⟨hg, hl, _⟩, _⟩ := h
    cases g with
    | nil => exact absurd rfl hg
    | cons l g => exact ⟨_, _, rfl, front_text hl.1.toTextLine i⟩
  | list items rest =>
    obtain ⟨l, ls, e, hl⟩ := items_front h.2.1 h.1 i
    exact ⟨l, _, by rw [Blocks.lines, e]; rfl, hl⟩
  | leaf L gap rest =>
    obtain ⟨l, ls, e, hl⟩ := leaf_front h.1 i
    exact ⟨l, _, by rw [Blocks.lines, e]; rfl, hl⟩
  | box X gap body rest => exact ⟨_, _, rfl, front_dir (box_dir h.1) i⟩
  | classed d gap body rest => exact ⟨_, _, rfl, front_dir h.1 i⟩
  | anchor ts X gap body rest =>
    obtain ⟨l, ls, e, hl⟩ := anchor_front h.1.1 i (X.dir.lines i ++ gap ++ body.lines (i + 3) ++ rest.lines i)
    exact ⟨l, ls, by rw [Blocks.lines, ← e]; simp, hl⟩
  | part X rest =>
    obtain ⟨l, ls, e, hl⟩ := part_front h.1 hq i
    exact ⟨l, _, by rw [Blocks.lines, e]; rfl, hl⟩
  | quote => exact absurd trivial hq
  | defs D rest =>
    obtain ⟨l, ls, e, hl⟩ := defs_front h.2.1 h.1 i
    exact ⟨l, _, by rw [Blocks.lines, e]; rfl, hl⟩
  | note N g ps gap body rest =>
    cases g with
    | nil => exact absurd rfl h.2.1.notEmpty
    | cons l g => exact ⟨_, _, rfl, front_note N l i⟩
  | aside name g ps gap body rest =>
    match g, h.2.1.notEmpty with
    | l :: ls, _ =>
      refine ⟨_, _, by rw [Blocks.lines, asideLines_cons (h.2.1.lines.1.toTextLine) i name ls]; rfl, front_dir (asideDir_ok h.1 h.2.1.lines.1) i⟩

theorem ends_blocks {i j : Nat} (hij : i < j) {B : Blocks} {after : List Str} (h : B.Ok) (hne : B ≠ .nil) (hq : ¬ B.quoted) :
    Ends j (B.lines i ++ after) := by
  obtain ⟨l, ls, e, hl⟩ := blocks_front h hne hq i
  rw [e]; exact hl.ends hij

theorem ends_items {i j : Nat} (hij : i < j) {I : Items} {after : List Str} (h : I.Ok)
    (hne : I ≠ .nil) : Ends j (I.lines i ++ after) := by
  obtain ⟨l, ls, e, hl⟩ := items_front h hne i
  rw [e]; exact hl.ends hij

theorem ends_defs {i j : Nat} (hij : i < j) {D : Defs} {after : List Str} (h : D.Ok) (hne : D ≠ .nil) : Ends j (D.lines i ++ after) := by
  obtain ⟨l, ls, e, hl⟩ := defs_front h hne i
  rw [e]; exact hl.ends hij

theorem low_defs {i : Nat} {D : Defs} {after : List Str} (h : D.Ok) (ha : Low (i + 1) after) : Low (i + 1) (D.lines i ++ after) := by
  by_cases hne : D = .nil
  · subst hne; exact ha
  · obtain ⟨l, ls, e, hl⟩ := defs_front h hne i
    rw [e]; exact hl.low (by omega)

theorem low_blocks {i : Nat} {B : Blocks} {after : List Str} (h : B.Ok) (hq : ¬ B.quoted) (ha : Low (i + 1) after) :
    Low (i + 1) (B.lines i ++ after) := by
  by_cases hne : B = .nil
  · subst hne; exact ha
  · obtain ⟨l, ls, e, hl⟩ := blocks_front h hne hq i
    rw [e]; exact hl.low (by omega)

theorem low_items {i : Nat} {I : Items} {after : List Str} (h : I.Ok)
    (ha : Low (i + 1) after) : Low (i + 1) (I.lines i ++ after) := by
  by_cases hne : I = .nil
  · subst hne; exact ha
  · obtain ⟨l, ls, e, hl⟩ := items_front h hne i
    rw [e]; exact hl.low (by omega)

/-! ## Indentation -/

/-- A blank line, or a line that is indented by at least the given number of spaces. -/
def Within (i : Nat) (l : Str) : Prop := isBlank l = true ∨ ∃ x, l = spaces i ++ x

theorem within_more (i k : Nat) (x : Str) : Within i (indentLine (i + k) x) :=
  .inr ⟨spaces k ++ x, by simp only [indentLine, spaces]; rw [← List.replicate_append_replicate, List.append_assoc]⟩

theorem within_line (i : Nat) (x : Str) : Within i (indentLine i x) := within_more i 0 x

theorem within_content (i k : Nat) (x : Str) : Within i (contentLine (i + k) x) := by
  unfold contentLine
  split
  · exact .inl rfl
  · exact within_more i k x

theorem Within.mono {i k : Nat} {l : Str} (h : Within (i + k) l) : Within i l := by
  rcases h with h | ⟨x, rfl⟩
  · exact .inl h
  · exact within_more i k x

theorem le_indentOf (i : Nat) (x : Str) : i ≤ indentOf (spaces i ++ x) := by
  induction i with
  | zero => omega
  | succ i ih =>
    rw [spaces, List.replicate_succ, List.cons_append]
    unfold indentOf at ih ⊢
    rw [List.takeWhile_cons, if_pos (by decide)]
    simp only [List.length_cons]
    rw [spaces] at ih
    omega

theorem Within.indent {i : Nat} {l : Str} (h : Within i l) : isBlank l = true ∨ i ≤ indentOf l := by
  rcases h with h | ⟨x, rfl⟩
  · exact .inl h
  · exact .inr (le_indentOf i x)

theorem within_dir (d : Dir) (i : Nat) : ∀ l ∈ d.lines i, Within i l := by
  intro l hl
  rcases List.mem_cons.mp hl with rfl | hl
  · exact within_line i _
  · obtain ⟨o, _, rfl⟩ := List.mem_map.mp hl
    exact within_more i 3 _

theorem within_leaf {L : Leaf} (h : L.Ok) (i : Nat) : ∀ l ∈ L.lines i, Within i l := by
  cases L with
  | comment x ls =>
    intro l hl
    rcases List.mem_cons.mp hl with rfl | hl
    · exact within_line i _
    · obtain ⟨o, _, rfl⟩ := List.mem_map.mp hl
      exact within_content i 3 _
  | code d gap ls =>
    intro l hl
    simp only [Leaf.lines, List.mem_append, List.mem_map] at hl
    rcases hl with (hl | hl) | ⟨o, _, rfl⟩
    · exact within_dir d i l hl
    · exact .inl (by rw [h.2.2.2.1 l hl]; rfl)
    · exact within_content i 3 _
  | listing d gap ls tail =>
    intro l hl
    simp only [Leaf.lines, List.mem_append, List.mem_map] at hl
    rcases hl with (hl | hl) | ⟨o, _, rfl⟩
    · exact within_dir d i l hl
    · exact .inl (by rw [h.2.2.2.1 l (by simp [hl])]; rfl)
    · exact within_content i 3 _
  | formulas d gap g more =>
    obtain ⟨_, _, _, _, hb, _, hm⟩ := h
    intro l hl
    simp only [Leaf.lines, List.mem_append, List.mem_map, List.mem_flatten] at hl
    rcases hl with ((hl | hl) | ⟨o, _, rfl⟩) | ⟨_, ⟨x, hx, rfl⟩, hl⟩
    · exact within_dir d i l hl
    · exact .inl (hb l hl)
    · exact within_more i 3 _
    · rcases List.mem_append.mp hl with hl | hl
      · exact .inl ((hm x hx).2.1 l hl)
      · obtain ⟨o, _, rfl⟩ := List.mem_map.mp hl
        exact within_more i 3 _
  | image d => exact within_dir d i
  | formula d => exact within_dir d i
  | input d => exact within_dir d i
  | output d => exact within_dir d i

theorem within_hints {type : AplusQuestionnaireType} {H : Hints} (h : H.Ok type) (i k : Nat) : ∀ l ∈ H.lines (i + k), Within i l := by
  intro l hl
  simp only [Hints.lines, List.mem_append, List.mem_map] at hl
  rcases hl with (hl | ⟨x, _, rfl⟩) | hl
  · exact .inl (h.gap l hl)
  · exact within_more i k _
  · exact .inl (h.after l hl)

theorem within_task {t : Task} (h : t.Ok) (i k : Nat) : ∀ l ∈ t.source (i + k), Within i l := by
  intro l hl
  rcases List.mem_append.mp hl with hl | hl
  · obtain ⟨x, _, rfl⟩ := List.mem_map.mp hl
    exact within_more i k _
  · exact .inl (h.gap.2 l hl)

theorem within_entry {e : Entry} (h : e.Ok) (i : Nat) : ∀ l ∈ e.lines i, Within i l := by
  cases e with
  | text g ps gap =>
    intro l hl
    rcases List.mem_append.mp hl with hl | hl
    · obtain ⟨x, _, rfl⟩ := List.mem_map.mp hl
      exact within_line i _
    · exact .inl (h.2.2.2 l hl)
  | pick any d gap task cs H =>
    obtain ⟨_, _, _, _, _, hb, ht, _, _, hh⟩ := h
    intro l hl
    simp only [Entry.lines, List.mem_append, List.mem_map] at hl
    rcases hl with hl | hl | hl | ⟨x, _, rfl⟩ | hl
    · exact within_dir d i l hl
    · exact .inl (hb l hl)
    · cases task with
      | none => cases hl
      | some t => exact within_task (ht t rfl).1 i 3 l hl
    · exact within_more i 3 _
    · exact within_hints hh i 3 l hl
  | free d p m gap task a H =>
    obtain ⟨_, _, _, _, _, _, _, hb, ht, _, hh⟩ := h
    intro l hl
    simp only [Entry.lines, List.mem_append, List.mem_cons] at hl
    rcases hl with hl | hl | hl | rfl | hl
    · exact within_dir d i l hl
    · exact .inl (hb l hl)
    · exact within_task ht i 3 l hl
    · exact within_more i 3 _
    · exact within_hints hh i 3 l hl

theorem within_verbatim {V : Verbatim} (h : V.Ok) (i : Nat) : ∀ l ∈ V.lines i, Within i l := by
  cases V with
  | indented k ls =>
    intro l hl
    obtain ⟨x, _, rfl⟩ := List.mem_map.mp hl
    unfold contentLine
    split
    · exact .inl rfl
    · exact within_more i (k + 1) x
  | quoted q ls after =>
    intro l hl
    simp only [Verbatim.lines, List.mem_append, List.mem_map] at hl
    rcases hl with ⟨x, _, rfl⟩ | hl
    · exact within_line i _
    · exact .inl (h.2.2.2 l hl)

theorem within_tag (m : Tag) (g : List Str) (i : Nat) : ∀ l ∈ m.lines i g, Within i l := by
  intro l hl
  cases g with
  | nil => cases hl
  | cons x g =>
    rcases List.mem_cons.mp hl with rfl | hl
    · exact within_line i _
    · obtain ⟨y, _, rfl⟩ := List.mem_map.mp hl
      exact within_more i m.width y

theorem within_row {r : Row} (h : r.Ok) (b : Char) (i : Nat) : ∀ l ∈ r.lines b i, Within i l := by
  intro l hl
  rcases List.mem_append.mp hl with hl | hl
  · exact within_tag (.bullet b) _ i l hl
  · exact .inl (h.gap l hl)

theorem within_targets {ts : List Target} (h : ∀ t ∈ ts, t.Ok) (i : Nat) : ∀ l ∈ targetsAt i ts, Within i l := by
  intro l hl
  obtain ⟨x, hx, hl⟩ := List.mem_flatten.mp hl
  obtain ⟨t, ht, rfl⟩ := List.mem_map.mp hx
  rcases List.mem_cons.mp hl with rfl | hl
  · exact within_line i _
  · exact .inl ((h t ht).gap l hl)

theorem within_part {X : Part} (h : X.Ok) (i : Nat) : ∀ l ∈ X.lines i, Within i l := by
  cases X with
  | anchored ts L gap =>
    obtain ⟨_, ht, hL, hg⟩ := h
    intro l hl
    simp only [Part.lines, List.mem_append] at hl
    rcases hl with hl | hl | hl
    · exact within_targets ht i l hl
    · exact within_leaf hL i l hl
    · exact .inl ((Leaf.GapOk.blank hg).2 l hl)
  | anchoredText ts g ps gap =>
    obtain ⟨_, ht, _, _, hb⟩ := h
    intro l hl
    simp only [Part.lines, List.mem_append, List.mem_map] at hl
    rcases hl with hl | ⟨x, _, rfl⟩ | hl
    · exact within_targets ht i l hl
    · exact within_line i x
    · exact .inl (hb l hl)
  | columns d gap xs =>
    obtain ⟨_, _, _, hb, _, hx⟩ := h
    intro l hl
    simp only [Part.lines, List.mem_append, List.mem_flatMap] at hl
    rcases hl with hl | hl | ⟨x, h1, h2⟩
    · exact within_dir d i l hl
    · exact .inl (hb l hl)
    · refine Within.mono (i := i) (k := 3) ?_
      have hxo := hx x h1
      cases x with
      | text g ps gap =>
        simp only [Flow.lines, List.mem_append, List.mem_map] at h2
        rcases h2 with ⟨y, _, rfl⟩ | h2
        · exact within_line (i + 3) y
        · exact .inl (hxo.2.2 l h2)
      | leaf L gap =>
        simp only [Flow.lines, List.mem_append] at h2
        rcases h2 with h2 | h2
        · exact within_leaf hxo.1 (i + 3) l h2
        · exact .inl ((Leaf.GapOk.blank hxo.2).2 l h2)
      | column gap =>
        simp only [Flow.lines, List.mem_cons] at h2
        rcases h2 with rfl | h2
        · exact within_line (i + 3) _
        · exact .inl (hxo l h2)
  | quiz d a gap es =>
    obtain ⟨_, _, _, _, _, hb, _, he⟩ := h
    intro l hl
    simp only [Part.lines, List.mem_append, List.mem_flatMap] at hl
    rcases hl with hl | hl | ⟨e, h1, h2⟩
    · exact within_dir d i l hl
    · exact .inl (hb l hl)
    · exact (within_entry (he e h1) (i + 3) l h2).mono
  | literal g ps gap V =>
    obtain ⟨_, _, hb, hV⟩ := h
    intro l hl
    simp only [Part.lines, List.mem_append, List.mem_map] at hl
    rcases hl with ⟨x, _, rfl⟩ | hl | hl
    · exact within_line i x
    · exact .inl (hb l hl)
    · exact within_verbatim hV i l hl
  | bare gap V =>
    obtain ⟨_, hb, hV⟩ := h
    intro l hl
    simp only [Part.lines, List.mem_cons, List.mem_append] at hl
    rcases hl with rfl | hl | hl
    · exact within_line i _
    · exact .inl (hb l hl)
    · exact within_verbatim hV i l hl
  | table T =>
    intro l hl
    simp only [Part.lines, Table.lines, List.mem_append, List.mem_flatMap] at hl
    rcases hl with hl | hl | ⟨r, h1, h2⟩
    · exact within_dir T.dir i l hl
    · exact .inl (h.gap.2 l hl)
    · exact (within_row (h.rows r h1) T.bullet (i + 3) l h2).mono

theorem within_signature {s : Signature} (h : s.Ok) (i : Nat) : ∀ l ∈ s.lines i, Within i l := by
  intro l hl
  rcases List.mem_cons.mp hl with rfl | hl
  · exact within_line i _
  · rcases List.mem_append.mp hl with hl | hl
    · obtain ⟨x, _, rfl⟩ := List.mem_map.mp hl
      exact within_more i s.deep x
    · exact .inl (h.blank l hl)

theorem within_note (N : Note) (g : List Str) (i : Nat) : ∀ l ∈ N.lines i g, Within i l := by
  intro l hl
  cases g with
  | nil => cases hl
  | cons x g =>
    rcases List.mem_cons.mp hl with rfl | hl
    · exact within_line i _
    · obtain ⟨y, _, rfl⟩ := List.mem_map.mp hl
      exact within_more i N.wide y

theorem within_aside (name : Str) (g : List Str) (i : Nat) : ∀ l ∈ asideLines i name g, Within i l := by
  intro l hl
  cases g with
  | nil => cases hl
  | cons x g =>
    rcases List.mem_cons.mp hl with rfl | hl
    · exact within_line i _
    · obtain ⟨y, _, rfl⟩ := List.mem_map.mp hl
      exact within_more i 3 y

mutual
/-- The lines of blocks are blank or indented. -/
theorem within_blocks : ∀ {B : Blocks}, B.Ok → ∀ (i : Nat), ∀ l ∈ B.lines i, Within i l
  | .nil, _, i => by intro l hl; cases hl
  | .para g ps gap rest, h, i => by
    intro l hl
    simp only [Blocks.lines, List.mem_append, List.mem_map] at hl
    rcases hl with (⟨x, _, rfl⟩ | hl) | hl
    · exact within_line i x
    · exact .inl (h.2.1 l hl)
    · exact within_blocks h.2.2.2 i l hl
  | .list items rest, h, i => by
    obtain ⟨_, hI, _, _, _, _, hrest⟩ := h
    intro l hl
    simp only [Blocks.lines, List.mem_append] at hl
    rcases hl with hl | hl
    · exact within_items hI i l hl
    · exact within_blocks hrest i l hl
  | .leaf L gap rest, h, i => by
    intro l hl
    simp only [Blocks.lines, List.mem_append] at hl
    rcases hl with (hl | hl) | hl
    · exact within_leaf h.1 i l hl
    · exact .inl ((Leaf.GapOk.blank h.2.1).2 l hl)
    · exact within_blocks h.2.2.2 i l hl
  | .box X gap body rest, h, i => by
    intro l hl
    simp only [Blocks.lines, List.mem_append] at hl
    rcases hl with ((hl | hl) | hl) | hl
    · exact within_dir _ i l hl
    · exact .inl (h.2.2.1 l hl)
    · exact (within_blocks h.2.2.2.2.2.2.1 (i + 3) l hl).mono
    · exact within_blocks h.2.2.2.2.2.2.2.2 i l hl
  | .classed d gap body rest, h, i => by
    obtain ⟨_, _, _, _, _, hb, _, _, _, _, hbody, _, hrest⟩ := h
    intro l hl
    simp only [Blocks.lines, List.mem_append] at hl
    rcases hl with ((hl | hl) | hl) | hl
    · exact within_dir _ i l hl
    · exact .inl (hb l hl)
    · exact (within_blocks hbody (i + 3) l hl).mono
    · exact within_blocks hrest i l hl
  | .anchor ts X gap body rest, h, i => by
    obtain ⟨⟨_, ht⟩, _, _, _, hb, _, _, hbody, _, hrest⟩ := h
    intro l hl
    simp only [Blocks.lines, List.mem_append] at hl
    rcases hl with (((hl | hl) | hl) | hl) | hl
    · exact within_targets ht i l hl
    · exact within_dir _ i l hl
    · exact .inl (hb l hl)
    · exact (within_blocks hbody (i + 3) l hl).mono
    · exact within_blocks hrest i l hl
  | .part X rest, h, i => by
    intro l hl
    simp only [Blocks.lines, List.mem_append] at hl
    rcases hl with hl | hl
    · exact within_part h.1 i l hl
    · exact within_blocks h.2.2 i l hl
  | .quote k body sign rest, h, i => by
    obtain ⟨_, _, _, hbody, _, hs, hrest⟩ := h
    intro l hl
    simp only [Blocks.lines, List.mem_append] at hl
    rcases hl with (hl | hl) | hl
    · exact (within_blocks hbody (i + (k + 1)) l hl).mono
    · cases sign with
      | none => cases hl
      | some s => exact (within_signature (hs s rfl).1 (i + (k + 1)) l hl).mono
    · exact within_blocks hrest i l hl
  | .defs D rest, h, i => by
    intro l hl
    simp only [Blocks.lines, List.mem_append] at hl
    rcases hl with hl | hl
    · exact within_defs h.2.1 i l hl
    · exact within_blocks h.2.2.2 i l hl
  | .note N g ps gap body rest, h, i => by
    obtain ⟨_, _, hgap, _, _, hbody, _, hrest⟩ := h
    intro l hl
    simp only [Blocks.lines, List.mem_append] at hl
    rcases hl with ((hl | hl) | hl) | hl
    · exact within_note N g i l hl
    · exact .inl (hgap l hl)
    · exact (within_blocks hbody (i + N.wide) l hl).mono
    · exact within_blocks hrest i l hl
  | .aside name g ps gap body rest, h, i => by
    obtain ⟨_, _, _, hgap, _, _, _, hbody, _, hrest⟩ := h
    intro l hl
    simp only [Blocks.lines, List.mem_append] at hl
    rcases hl with ((hl | hl) | hl) | hl
    · exact within_aside name g i l hl
    · exact .inl (by rw [hgap l hl]; rfl)
    · exact (within_blocks hbody (i + 3) l hl).mono
    · exact within_blocks hrest i l hl
/-- The lines of items are blank or indented. -/
theorem within_items : ∀ {I : Items}, I.Ok → ∀ (i : Nat), ∀ l ∈ I.lines i, Within i l
  | .nil, _, i => by intro l hl; cases hl
  | .item m g ps gap body rest, h, i => by
    obtain ⟨_, _, hgap, _, _, hbody, hrest⟩ := h
    intro l hl
    simp only [Items.lines, List.mem_append] at hl
    rcases hl with ((hl | hl) | hl) | hl
    · cases g with
      | nil => cases hl
      | cons x g =>
        rcases List.mem_cons.mp hl with rfl | hl
        · exact .inr ⟨_, rfl⟩
        · obtain ⟨o, _, rfl⟩ := List.mem_map.mp hl
          exact within_more i m.width _
    · exact .inl (hgap l hl)
    · exact (within_blocks hbody (i + m.width) l hl).mono
    · exact within_items hrest i l hl
/-- The lines of definition lists are blank or indented. -/
theorem within_defs : ∀ {D : Defs}, D.Ok → ∀ (i : Nat), ∀ l ∈ D.lines i, Within i l
  | .nil, _, i => by intro l hl; cases hl
  | .term t body rest, h, i => by
    obtain ⟨_, _, _, hbody, hrest⟩ := h
    intro l hl
    simp only [Defs.lines, List.mem_append, List.mem_cons] at hl
    rcases hl with rfl | hl | hl
    · exact within_line i _
    · exact (within_blocks hbody (i + (t.deep + 1)) l hl).mono
    · exact within_defs hrest i l hl
end

/-! ## Lines without their indentation -/

theorem drop_line (w k : Nat) (x : Str) : (indentLine (w + k) x).drop w = indentLine k x := by
  simp only [indentLine]
  rw [← List.replicate_append_replicate, List.append_assoc, List.drop_left' (by simp)]

theorem drop_content (w k : Nat) (x : Str) : (contentLine (w + k) x).drop w = contentLine k x := by
  unfold contentLine
  split
  · simp
  · exact drop_line w k x

theorem map_drop_lines (w k : Nat) (ls : List Str) :
    (ls.map (indentLine (w + k))).map (·.drop w) = ls.map (indentLine k) := by
  rw [List.map_map]
  exact List.map_congr_left fun x _ => drop_line w k x

theorem map_drop_content (w k : Nat) (ls : List Str) :
    (ls.map (contentLine (w + k))).map (·.drop w) = ls.map (contentLine k) := by
  rw [List.map_map]
  exact List.map_congr_left fun x _ => drop_content w k x

theorem map_drop_gap {gap : List Str} (h : ∀ l ∈ gap, l = []) (w : Nat) : gap.map (·.drop w) = gap := by
  conv => rhs; rw [← List.map_id gap]
  exact List.map_congr_left fun x hx => by rw [h x hx]; simp

theorem map_drop_dir (d : Dir) (w k : Nat) : (d.lines (w + k)).map (·.drop w) = d.lines k := by
  simp only [Dir.lines, List.map_cons, List.map_map, drop_line]
  congr 1
  exact List.map_congr_left fun o _ => by
    show (indentLine (w + k + 3) _).drop w = _
    rw [Nat.add_assoc, drop_line]

theorem map_drop_leaf {L : Leaf} (h : L.Ok) (ht : L.Tidy) (w k : Nat) : (L.lines (w + k)).map (·.drop w) = L.lines k := by
  cases L with
  | comment x ls =>
    simp only [Leaf.lines, List.map_cons, drop_line, Nat.add_assoc, map_drop_content]
  | code d gap ls =>
    simp only [Leaf.lines, List.map_append, map_drop_dir, Nat.add_assoc, map_drop_content, map_drop_gap h.2.2.2.1]
  | listing d gap ls tail =>
    simp only [Leaf.lines, List.map_append, map_drop_dir, Nat.add_assoc, map_drop_content,
      map_drop_gap (gap := gap) (fun l hl => h.2.2.2.1 l (by simp [hl]))]
  | formulas d gap g more =>
    simp only [Leaf.lines, List.map_append, map_drop_dir, Nat.add_assoc, map_drop_gap ht.1, List.map_flatten]
    rw [map_drop_lines, List.map_map]
    congr 2
    refine List.map_congr_left fun x hx => ?_
    simp only [Function.comp_apply, List.map_append, map_drop_gap (ht.2 x hx), map_drop_lines]
  | image d => exact map_drop_dir d w k
  | formula d => exact map_drop_dir d w k
  | input d => exact map_drop_dir d w k
  | output d => exact map_drop_dir d w k

theorem map_drop_tag (m : Tag) (g : List Str) (w k : Nat) : (m.lines (w + k) g).map (·.drop w) = m.lines k g := by
  cases g with
  | nil => rfl
  | cons l g =>
    simp only [Tag.lines, List.map_cons, Nat.add_assoc, map_drop_lines]
    congr 1
    exact drop_line w k (m.text ++ l)

theorem map_drop_part {X : Part} (_h : X.Ok) (ht : X.Tidy) (w k : Nat) : (X.lines (w + k)).map (·.drop w) = X.lines k := by
  cases X with
  | quiz d a gap es => exact ht.elim
  | literal g ps gap V => exact ht.elim
  | bare gap V => exact ht.elim
  | table T => exact ht.elim
  | anchored ts L gap => exact ht.elim
  | anchoredText ts g ps gap => exact ht.elim
  | columns d gap xs => exact ht.elim

mutual
/-- Tidy blocks can be moved to the left. -/
theorem map_drop_blocks : ∀ {B : Blocks}, B.Ok → B.Tidy → ∀ (w k : Nat), (B.lines (w + k)).map (·.drop w) = B.lines k
  | .nil, _, _, w, k => rfl
  | .para g ps gap rest, h, ht, w, k => by
    simp only [Blocks.lines, List.map_append, map_drop_lines, map_drop_gap ht.1, map_drop_blocks h.2.2.2 ht.2]
  | .list items rest, h, ht, w, k => by
    obtain ⟨_, hI, _, _, _, _, hrest⟩ := h
    simp only [Blocks.lines, List.map_append, map_drop_items hI ht.1, map_drop_blocks hrest ht.2]
  | .leaf L gap rest, h, ht, w, k => by
    simp only [Blocks.lines, List.map_append, map_drop_leaf h.1 ht.1, map_drop_gap ht.2.1, map_drop_blocks h.2.2.2 ht.2.2]
  | .box X gap body rest, h, ht, w, k => ht.elim
  | .classed .., h, ht, w, k => ht.elim
  | .anchor .., h, ht, w, k => ht.elim
  | .part X rest, h, ht, w, k => by
    simp only [Blocks.lines, List.map_append, map_drop_part h.1 ht.1, map_drop_blocks h.2.2 ht.2]
  | .quote q body sign rest, h, ht, w, k => by
    obtain ⟨_, _, _, hbody, _, _, hrest⟩ := h
    obtain ⟨ht, rfl, ht'⟩ := ht
    simp only [Blocks.lines, List.map_append, Nat.add_assoc, map_drop_blocks hbody ht, signLines, List.map_nil, map_drop_blocks hrest ht']
  | .defs D rest, h, ht, w, k => ht.elim
  | .note .., h, ht, w, k => ht.elim
  | .aside .., h, ht, w, k => ht.elim
/-- Tidy items can be moved to the left. -/
theorem map_drop_items : ∀ {I : Items}, I.Ok → I.Tidy → ∀ (w k : Nat),
    (I.lines (w + k)).map (·.drop w) = I.lines k
  | .nil, _, _, w, k => rfl
  | .item m g ps gap body rest, h, ht, w, k => by
    obtain ⟨_, _, _, _, _, hbody, hrest⟩ := h
    simp only [Items.lines, List.map_append, map_drop_tag, map_drop_gap ht.1, Nat.add_assoc, map_drop_blocks hbody ht.2.1,
      map_drop_items hrest ht.2.2]
end

/-! ## Blank lines do not depend on the indentation -/

theorem isBlank_indent (k : Nat) (x : Str) : isBlank (indentLine k x) = isBlank x := by
  have key : isBlank (indentLine k x) = false ↔ isBlank x = false := by
    rw [isBlank_false_iff, isBlank_false_iff]
    constructor
    · rintro ⟨c, hc, hw⟩
      rcases List.mem_append.mp hc with hc | hc
      · rw [List.eq_of_mem_replicate hc] at hw; exact absurd hw (by decide)
      · exact ⟨c, hc, hw⟩
    · rintro ⟨c, hc, hw⟩
      exact ⟨c, List.mem_append.mpr (.inr hc), hw⟩
  cases h : isBlank x with
  | false => exact key.mpr h
  | true =>
    cases h' : isBlank (indentLine k x) with
    | true => rfl
    | false => rw [key.mp h'] at h; exact h

theorem isBlank_content (k : Nat) (x : Str) : isBlank (contentLine k x) = isBlank x := by
  unfold contentLine
  split
  · rename_i h; rw [h]
  · exact isBlank_indent k x

theorem blank_map (k : Nat) (ls : List Str) : (ls.map (indentLine k)).map isBlank = ls.map isBlank := by
  rw [List.map_map]; exact List.map_congr_left fun x _ => isBlank_indent k x

theorem blank_contents (k : Nat) (ls : List Str) : (ls.map (contentLine k)).map isBlank = ls.map isBlank := by
  rw [List.map_map]; exact List.map_congr_left fun x _ => isBlank_content k x

theorem blank_of {α : Type} (k : Nat) (f : α → Str) (ls : List α) : (ls.map fun x => indentLine k (f x)).map isBlank = ls.map fun x => isBlank (f x) := by
  rw [List.map_map]; exact List.map_congr_left fun x _ => isBlank_indent k (f x)

theorem blank_dir (d : Dir) (i : Nat) : (d.lines i).map isBlank = (d.lines 0).map isBlank := by
  simp only [Dir.lines, List.map_cons, isBlank_indent, blank_of]

theorem blank_leaf (L : Leaf) (i : Nat) : (L.lines i).map isBlank = (L.lines 0).map isBlank := by
  cases L with
  | comment x ls => simp only [Leaf.lines, List.map_cons, isBlank_indent, blank_contents]
  | code d gap ls => simp only [Leaf.lines, List.map_append, blank_dir d i, blank_contents]
  | listing d gap ls tail => simp only [Leaf.lines, List.map_append, blank_dir d i, blank_contents]
  | formulas d gap g more =>
    have : ((more.map fun x => x.1 ++ x.2.map (indentLine (i + 3))).flatten).map isBlank =
        ((more.map fun x => x.1 ++ x.2.map (indentLine (0 + 3))).flatten).map isBlank := by
      rw [List.map_flatten, List.map_flatten, List.map_map, List.map_map]
      congr 1
      refine List.map_congr_left fun x _ => ?_
      show ((x.1 ++ x.2.map (indentLine (i + 3))).map isBlank) = ((x.1 ++ x.2.map (indentLine (0 + 3))).map isBlank)
      rw [List.map_append, List.map_append, blank_map, blank_map]
    simp only [Leaf.lines, List.map_append, blank_dir d i, blank_map, this]
  | image d => exact blank_dir d i
  | formula d => exact blank_dir d i
  | input d => exact blank_dir d i
  | output d => exact blank_dir d i

theorem blank_entry (e : Entry) (i j : Nat) : (e.lines i).map isBlank = (e.lines j).map isBlank := by
  cases e with
  | text g ps gap => simp only [Entry.lines, List.map_append, blank_map]
  | pick any d gap task cs H =>
    rw [Entry.lines, Entry.lines]
    have : (taskSource (i + 3) task).map isBlank = (taskSource (j + 3) task).map isBlank := by
      cases task with
      | none => rfl
      | some t => simp only [taskSource, Task.source, List.map_append, blank_map]
    simp only [List.map_append, blank_dir d i, blank_dir d j, this, blank_of, Hints.lines]
  | free d p m gap task a H =>
    rw [Entry.lines, Entry.lines]
    simp only [List.map_append, List.map_cons, blank_dir d i, blank_dir d j, Task.source, blank_map, blank_of, isBlank_indent, Hints.lines]

theorem blank_tags (m : Tag) (i j : Nat) (g : List Str) : (m.lines i g).map isBlank = (m.lines j g).map isBlank := by
  cases g with
  | nil => rfl
  | cons l g =>
    simp only [Tag.lines, List.map_cons, blank_map]
    congr 1
    exact (isBlank_indent i _).trans (isBlank_indent j _).symm

theorem blank_targets (ts : List Target) (i : Nat) : (targetsAt i ts).map isBlank = (targetsAt 0 ts).map isBlank := by
  induction ts with
  | nil => rfl
  | cons t ts ih =>
    have e : ∀ k, targetsAt k (t :: ts) = indentLine k t.line :: t.gap ++ targetsAt k ts := fun k => by simp [targetsAt]
    simp only [e, List.map_append, List.map_cons, isBlank_indent, ih]

theorem blank_part (X : Part) (i : Nat) : (X.lines i).map isBlank = (X.lines 0).map isBlank := by
  cases X with
  | anchored ts L gap => simp only [Part.lines, List.map_append, blank_targets ts i, blank_leaf L i]
  | anchoredText ts g ps gap => simp only [Part.lines, List.map_append, blank_targets ts i, blank_map]
  | columns d gap xs =>
    simp only [Part.lines, List.map_append, blank_dir d i, List.map_flatMap]
    congr 2
    refine List.flatMap_congr fun x _ => ?_
    cases x with
    | text g ps gap => simp only [Flow.lines, List.map_append, blank_map]
    | leaf L gap => simp only [Flow.lines, List.map_append, blank_leaf L (i + 3), blank_leaf L (0 + 3)]
    | column gap => simp only [Flow.lines, List.map_cons, isBlank_indent]
  | quiz d a gap es =>
    simp only [Part.lines, List.map_append, blank_dir d i, List.map_flatMap]
    congr 2
    exact List.flatMap_congr fun e _ => blank_entry e _ _
  | literal g ps gap V =>
    simp only [Part.lines, List.map_append, blank_map]
    congr 2
    cases V with
    | indented k ls => simp only [Verbatim.lines, blank_contents]
    | quoted q ls after => simp only [Verbatim.lines, List.map_append, blank_of]
  | bare gap V =>
    simp only [Part.lines, List.map_cons, List.map_append, isBlank_indent]
    congr 2
    cases V with
    | indented k ls => simp only [Verbatim.lines, blank_contents]
    | quoted q ls after => simp only [Verbatim.lines, List.map_append, blank_of]
  | table T =>
    simp only [Part.lines, Table.lines, List.map_append, blank_dir T.dir i, List.map_flatMap]
    congr 2
    refine List.flatMap_congr fun r _ => ?_
    simp only [Row.lines, List.map_append, blank_tags _ (i + 3) (0 + 3)]

theorem blank_notes (N : Note) (i j : Nat) (g : List Str) : (N.lines i g).map isBlank = (N.lines j g).map isBlank := by
  cases g with
  | nil => rfl
  | cons l g =>
    simp only [Note.lines, List.map_cons, blank_map]
    congr 1
    exact (isBlank_indent i _).trans (isBlank_indent j _).symm

theorem blank_asides (name : Str) (i j : Nat) (g : List Str) : (asideLines i name g).map isBlank = (asideLines j name g).map isBlank := by
  cases g with
  | nil => rfl
  | cons l g =>
    simp only [asideLines, List.map_cons, blank_map]
    congr 1
    exact (isBlank_indent i _).trans (isBlank_indent j _).symm

mutual
theorem blank_blocks : ∀ (B : Blocks) (i j : Nat), (B.lines i).map isBlank = (B.lines j).map isBlank
  | .nil, i, j => rfl
  | .para g ps gap rest, i, j => by
    simp only [Blocks.lines, List.map_append, blank_map, blank_blocks rest i j]
  | .list items rest, i, j => by
    simp only [Blocks.lines, List.map_append, blank_items items i j, blank_blocks rest i j]
  | .leaf L gap rest, i, j => by
    simp only [Blocks.lines, List.map_append, blank_leaf L i, blank_leaf L j, blank_blocks rest i j]
  | .box X gap body rest, i, j => by
    simp only [Blocks.lines, List.map_append, blank_dir X.dir i, blank_dir X.dir j, blank_blocks body (i + 3) (j + 3), blank_blocks rest i j]
  | .classed d gap body rest, i, j => by
    simp only [Blocks.lines, List.map_append, blank_dir d i, blank_dir d j, blank_blocks body (i + 3) (j + 3), blank_blocks rest i j]
  | .anchor ts X gap body rest, i, j => by
    simp only [Blocks.lines, List.map_append, blank_targets ts i, blank_targets ts j, blank_dir X.dir i, blank_dir X.dir j,
      blank_blocks body (i + 3) (j + 3), blank_blocks rest i j]
  | .part X rest, i, j => by
    simp only [Blocks.lines, List.map_append, blank_part X i, blank_part X j, blank_blocks rest i j]
  | .quote k body sign rest, i, j => by
    have : (signLines (i + (k + 1)) sign).map isBlank = (signLines (j + (k + 1)) sign).map isBlank := by
      cases sign with
      | none => rfl
      | some s => simp only [signLines, Signature.lines, List.map_cons, List.map_append, isBlank_indent, blank_map]
    simp only [Blocks.lines, List.map_append, blank_blocks body (i + (k + 1)) (j + (k + 1)), this, blank_blocks rest i j]
  | .defs D rest, i, j => by
    simp only [Blocks.lines, List.map_append, blank_defs D i j, blank_blocks rest i j]
  | .note N g ps gap body rest, i, j => by
    simp only [Blocks.lines, List.map_append, blank_notes N i j, blank_blocks body (i + N.wide) (j + N.wide), blank_blocks rest i j]
  | .aside name g ps gap body rest, i, j => by
    simp only [Blocks.lines, List.map_append, blank_asides name i j, blank_blocks body (i + 3) (j + 3), blank_blocks rest i j]
theorem blank_items : ∀ (I : Items) (i j : Nat), (I.lines i).map isBlank = (I.lines j).map isBlank
  | .nil, i, j => rfl
  | .item m g ps gap body rest, i, j => by
    simp only [Items.lines, List.map_append, blank_tags m i j, blank_blocks body (i + m.width) (j + m.width), blank_items rest i j]
theorem blank_defs : ∀ (D : Defs) (i j : Nat), (D.lines i).map isBlank = (D.lines j).map isBlank
  | .nil, i, j => rfl
  | .term t body rest, i, j => by
    simp only [Defs.lines, List.map_append, List.map_cons, isBlank_indent, blank_blocks body (i + (t.deep + 1)) (j + (t.deep + 1)), blank_defs rest i j]
end

theorem blankLast_iff (ls : List Str) : BlankLast ls ↔ ∀ b, (ls.map isBlank).getLast? = some b → b = true := by
  unfold BlankLast
  rw [List.getLast?_map]
  cases ls.getLast? <;> simp

/-- Whether the last line is blank does not depend on the indentation. -/
theorem blankLast_move {B : Blocks} {i : Nat} (h : BlankLast (B.lines i)) (j : Nat) : BlankLast (B.lines j) := by
  rw [blankLast_iff] at h ⊢
  rw [blank_blocks B j i]; exact h

end Rustla
