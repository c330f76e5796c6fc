import Verif.Spec.Driver
import Verif.Lemmas.Doc
import Verif.Props.Parsed
/-! # Lemmas about reading sources -/
namespace Rustla
open Relation

/-! ## UTF-8 -/

theorem decode_encode (s : Str) : decode (encode s) = some s := by
  have := List.utf8Decode?_utf8Encode (l := s)
  unfold List.utf8Encode at this
  simp [decode, encode, this]

theorem encode_decode {bs : Bytes} {s : Str} (h : decode bs = some s) : encode s = bs := by
  unfold decode at h
  cases hd : bs.toByteArray.utf8Decode? with
  | none => simp [hd] at h
  | some a =>
    simp only [hd, Option.map_some, Option.some.injEq] at h
    have := ByteArray.utf8Encode_get_utf8Decode? (b := bs.toByteArray) (h := by simp [hd])
    simp only [hd, Option.get_some, h] at this
    unfold List.utf8Encode at this
    have h2 := congrArg (fun b => b.data.toList) this
    simpa [encode] using h2

theorem encode_inj {a b : Str} (h : encode a = encode b) : a = b := by
  have := decode_encode a
  rw [h, decode_encode] at this
  exact (Option.some.inj this).symm

@[simp] theorem encode_nil : encode [] = [] := rfl

@[simp] theorem encode_append (a b : Str) : encode (a ++ b) = encode a ++ encode b := by simp [encode]

theorem encode_eq_nil {s : Str} (h : encode s = []) : s = [] := encode_inj (b := []) h

theorem byte_char {c : Char} (b : Nat) (hb7 : b < 128) (h : UInt8.ofNat b ∈ String.utf8EncodeChar c) : c.val.toNat = b := by
  have e : ∀ n : Nat, n < 256 → UInt8.ofNat b = UInt8.ofNat n → n = b := by
    intro n hn h
    have := congrArg UInt8.toNat h
    simp only [UInt8.toNat_ofNat'] at this
    omega
  unfold String.utf8EncodeChar at h
  simp only at h
  have hb : c.val.toNat < 4294967296 := c.val.toNat_lt
  split at h
  · simp only [List.mem_singleton] at h
    exact e _ (by omega) h
  · split at h
    · simp only [List.mem_cons, List.not_mem_nil, or_false] at h
      rcases h with h | h
      · have := e _ (by omega) h; omega
      · have := e _ (by omega) h; omega
    · split at h
      · simp only [List.mem_cons, List.not_mem_nil, or_false] at h
        rcases h with h | h | h
        · have := e _ (by omega) h; omega
        · have := e _ (by omega) h; omega
        · have := e _ (by omega) h; omega
      · simp only [List.mem_cons, List.not_mem_nil, or_false] at h
        rcases h with h | h | h | h
        · have := e _ (by omega) h; omega
        · have := e _ (by omega) h; omega
        · have := e _ (by omega) h; omega
        · have := e _ (by omega) h; omega

theorem ten_char {c : Char} (h : (10 : UInt8) ∈ String.utf8EncodeChar c) : c = '\n' := by
  apply Char.ext
  apply UInt32.toNat_inj.1
  rw [byte_char 10 (by decide) h]; rfl

theorem dot_char {c : Char} (h : dot ∈ String.utf8EncodeChar c) : c = '.' := by
  apply Char.ext
  apply UInt32.toNat_inj.1
  rw [byte_char 46 (by decide) h]; rfl

theorem dot_encode {s : Str} (h : dot ∈ encode s) : '.' ∈ s := by
  simp only [encode, List.mem_flatMap] at h
  obtain ⟨c, hc, h⟩ := h
  rw [← dot_char h]; exact hc

theorem ten_encode {s : Str} (h : (10 : UInt8) ∈ encode s) : '\n' ∈ s := by
  simp only [encode, List.mem_flatMap] at h
  obtain ⟨c, hc, h⟩ := h
  rw [← ten_char h]; exact hc

theorem newline_encode : encode ['\n'] = [10] := by decide

theorem ten_of_newline {s : Str} (h : '\n' ∈ s) : (10 : UInt8) ∈ encode s := by
  simp only [encode, List.mem_flatMap]
  exact ⟨'\n', h, by decide⟩

/-! ## Pieces -/

theorem pieces_free : ∀ {l cur rest : Bytes}, (10 : UInt8) ∉ l → pieces cur (l ++ rest) = pieces (cur ++ l) rest
  | [], cur, rest, _ => by simp
  | b :: l, cur, rest, h => by
    have hb : b ≠ 10 := fun e => h (by simp [e])
    simp only [List.cons_append, pieces, hb, if_false]
    rw [pieces_free (fun hm => h (by simp [hm]))]
    simp

theorem pieces_line {l rest : Bytes} (h : (10 : UInt8) ∉ l) :
    pieces [] (l ++ 10 :: rest) = (l ++ [10]) :: pieces [] rest := by
  rw [pieces_free h]; simp [pieces]

theorem linePieces_last {l : Bytes} (h : (10 : UInt8) ∉ l) : pieces [] l = if l.isEmpty then [] else [l] := by
  have := pieces_free (cur := []) (rest := []) h
  simpa [pieces] using this

/-! ## Lines -/

theorem chomp_last {l : Str} (h : '\n' ∉ l) : chomp l = l := by
  unfold chomp
  rw [if_neg]
  intro e
  exact h (List.mem_of_getLast? e)

theorem chomp_lf {l : Str} (h : l.getLast? ≠ some '\r') : chomp (l ++ ['\n']) = l := by
  unfold chomp
  simp [h]

theorem chomp_crlf {l : Str} : chomp (l ++ ['\r', '\n']) = l := by
  unfold chomp
  have e : l ++ ['\r', '\n'] = (l ++ ['\r']) ++ ['\n'] := by simp
  simp only [e, List.getLast?_append, List.dropLast_concat]
  simp

theorem sourceLines_encodes {ls : List Str} {bs : Bytes} (h : Spec.Encodes ls bs) : sourceLines bs = some ls := by
  induction h with
  | nil => rfl
  | last l hn hl =>
    have h10 : (10 : UInt8) ∉ encode l := fun e => hl (ten_encode e)
    have hne : (encode l).isEmpty = false := by
      cases he : encode l with
      | nil => exact absurd (encode_eq_nil he) hn
      | cons a b => rfl
    simp [sourceLines, linePieces_last h10, hne, decode_encode, chomp_last hl]
  | lf l hl hr h ih =>
    have h10 : (10 : UInt8) ∉ encode l := fun e => hl (ten_encode e)
    unfold sourceLines at ih ⊢
    rw [encode_append, newline_encode, List.append_assoc, List.singleton_append, pieces_line h10]
    rw [show encode l ++ [10] = encode (l ++ ['\n']) by rw [encode_append, newline_encode]]
    simp [-encode_append, decode_encode, ih, chomp_lf hr]
  | crlf l hl h ih =>
    have h10 : (10 : UInt8) ∉ encode (l ++ ['\r']) := fun e => by
      have := ten_encode e
      simp at this
      exact hl this
    unfold sourceLines at ih ⊢
    rw [show l ++ ['\r', '\n'] = (l ++ ['\r']) ++ ['\n'] by simp]
    rw [encode_append, newline_encode, List.append_assoc, List.singleton_append, pieces_line h10]
    rw [show encode (l ++ ['\r']) ++ [10] = encode (l ++ ['\r', '\n']) by
      rw [show l ++ ['\r', '\n'] = (l ++ ['\r']) ++ ['\n'] by simp, encode_append (l ++ ['\r']), newline_encode]]
    simp [-encode_append, decode_encode, ih, chomp_crlf]

theorem encodes_text : ∀ (n : Nat) (s : Str), s.length ≤ n → ∃ ls, Spec.Encodes ls (encode s) := by
  intro n
  induction n with
  | zero =>
    intro s hs
    cases s with
    | nil => exact ⟨[], .nil⟩
    | cons c s => simp at hs
  | succ n ih =>
    intro s hs
    by_cases h : '\n' ∈ s
    · obtain ⟨a, b, rfl, ha⟩ := List.eq_append_cons_of_mem h
      obtain ⟨ls, hls⟩ := ih b (by simp at hs; omega)
      by_cases hr : a.getLast? = some '\r'
      · obtain ⟨a', rfl⟩ := List.getLast?_eq_some_iff.1 hr
        refine ⟨a' :: ls, ?_⟩
        have := Spec.Encodes.crlf a' (fun e => ha (by simp [e])) hls
        rw [← encode_append] at this
        simpa only [List.append_assoc, List.cons_append, List.nil_append] using this
      · refine ⟨a :: ls, ?_⟩
        have := Spec.Encodes.lf a ha hr hls
        rwa [← encode_append, List.append_assoc] at this
    · by_cases hn : s = []
      · subst hn; exact ⟨[], .nil⟩
      · exact ⟨[s], .last s hn h⟩

theorem encodes_utf8 {ls : List Str} {bs : Bytes} (h : Spec.Encodes ls bs) : Spec.Utf8 bs := by
  induction h with
  | nil => exact ⟨[], rfl⟩
  | last l hn hl => exact ⟨l, rfl⟩
  | lf l hl hr h ih => obtain ⟨s, rfl⟩ := ih; exact ⟨l ++ ['\n'] ++ s, encode_append ..⟩
  | crlf l hl h ih => obtain ⟨s, rfl⟩ := ih; exact ⟨l ++ ['\r', '\n'] ++ s, encode_append ..⟩

/-- If all pieces are valid, so is the whole. -/
theorem pieces_flatten : ∀ (bs cur : Bytes), (pieces cur bs).flatten = cur ++ bs
  | [], cur => by
    unfold pieces
    cases cur <;> simp
  | b :: bs, cur => by
    unfold pieces
    split
    · simp [pieces_flatten bs []]
    · rw [pieces_flatten bs]; simp

theorem mapM_utf8 : ∀ {ps : List Bytes} {ls : List Str},
    ps.mapM (fun p => (decode p).map chomp) = some ls → Spec.Utf8 ps.flatten
  | [], _, _ => ⟨[], rfl⟩
  | p :: ps, ls, h => by
    simp only [List.mapM_cons, Option.bind_eq_bind, Option.bind_eq_some_iff, Option.map_eq_some_iff] at h
    obtain ⟨_, ⟨s, hs, _⟩, ls', h', _⟩ := h
    obtain ⟨s', hs'⟩ := mapM_utf8 h'
    exact ⟨s ++ s', by simp [encode_decode hs, hs']⟩

theorem sourceLines_utf8 {ls : List Str} {bs : Bytes} (h : sourceLines bs = some ls) : Spec.Utf8 bs := by
  have := mapM_utf8 h
  rwa [pieces_flatten] at this

/-! ## File names -/

theorem beforeLastDot_none : ∀ {n : Bytes}, beforeLastDot n = none ↔ dot ∉ n
  | [] => by simp [beforeLastDot]
  | b :: n => by
    have ih := @beforeLastDot_none n
    unfold beforeLastDot
    cases h : beforeLastDot n with
    | some r => simp only [h] at ih; simp at ih; simp [ih]
    | none =>
      rw [h] at ih
      have := ih.1 rfl
      by_cases hb : b = dot
      · simp [hb]
      · simp [hb, this, Ne.symm hb]

theorem beforeLastDot_some : ∀ {n r : Bytes}, beforeLastDot n = some r ↔ ∃ ext, n = r ++ dot :: ext ∧ dot ∉ ext
  | [], r => by simp [beforeLastDot]
  | b :: n, r => by
    unfold beforeLastDot
    cases h : beforeLastDot n with
    | some q =>
      obtain ⟨ext, h1, h2⟩ := beforeLastDot_some.1 h
      constructor
      · rintro ⟨⟩; exact ⟨ext, by simp [h1], h2⟩
      · rintro ⟨e, h3, h4⟩
        cases r with
        | nil =>
          simp only [List.nil_append, List.cons.injEq] at h3
          exact absurd (by rw [← h3.2, h1]; simp) h4
        | cons c r =>
          simp only [List.cons_append, List.cons.injEq] at h3
          have := beforeLastDot_some.2 ⟨e, h3.2, h4⟩
          rw [h] at this
          rw [Option.some.inj this, h3.1]
    | none =>
      have hn := beforeLastDot_none.1 h
      constructor
      · intro h0
        by_cases hb : b = dot
        · simp only [hb, if_true, Option.some.injEq] at h0
          subst h0
          exact ⟨n, by simp [hb], hn⟩
        · simp [hb] at h0
      · rintro ⟨e, h3, h4⟩
        cases r with
        | nil =>
          simp only [List.nil_append, List.cons.injEq] at h3
          simp [h3.1]
        | cons c r =>
          simp only [List.cons_append, List.cons.injEq] at h3
          exact absurd (by rw [h3.2]; simp) hn

theorem stemOf_spec (n : Bytes) : Spec.StemOf n (stemOf n) := by
  unfold stemOf
  cases h : beforeLastDot n with
  | none =>
    right
    refine ⟨rfl, ?_⟩
    intro a b hab _
    exact absurd (by rw [hab]; simp) (beforeLastDot_none.1 h)
  | some r =>
    obtain ⟨ext, h1, h2⟩ := beforeLastDot_some.1 h
    by_cases hr : r = []
    · subst hr
      right
      refine ⟨rfl, ?_⟩
      intro a b hab hb
      have := beforeLastDot_some.2 ⟨b, hab, hb⟩
      rw [h] at this
      exact (Option.some.inj this).symm
    · left
      have : r.isEmpty = false := by cases r <;> simp_all
      simp only [this]
      exact ⟨hr, ext, h1, h2⟩

/-! ## The file name of a document does not change -/

/-- The stored file name and folder. -/
def DocTree.origin (d : DocTree) : Str × Str := (d.filenameStem, d.fileFolder)

theorem addTargets_origin (ls : List Str) : ∀ (d : DocTree), (d.addTargets ls).origin = d.origin := by
  unfold DocTree.addTargets
  induction ls with
  | nil => intro d; rfl
  | cons l ls ih => intro d; rw [List.foldl_cons, ih]; rfl

theorem addReferences_origin (ls : List Str) : ∀ (d : DocTree), (d.addReferences ls).origin = d.origin := by
  unfold DocTree.addReferences
  induction ls with
  | nil => intro d; rfl
  | cons l ls ih => intro d; rw [List.foldl_cons, ih]; rfl

theorem takeLabels_origin (d : DocTree) (data : NodeType) : (d.takeLabels data).2.origin = d.origin := by
  unfold DocTree.takeLabels
  split <;> rfl

theorem hyperref_origin (d : DocTree) (data : NodeType) : (d.hyperrefActions data).2.2.origin = d.origin := by
  rw [← takeLabels_origin d data]
  unfold DocTree.hyperrefActions
  generalize d.takeLabels data = x
  obtain ⟨labels, d⟩ := x
  simp only
  split
  · rfl
  · rfl
  · rename_i bi kind label target
    cases kind <;> exact addTargets_origin _ _
  · rename_i text target kind
    cases kind <;> simp only
    · exact addReferences_origin _ _
    · split
      · exact addReferences_origin _ _
      · rfl
    · split
      · exact addReferences_origin _ _
      · rfl
    · split
      · exact addReferences_origin _ _
      · rfl
  · exact addTargets_origin _ _
  · exact addTargets_origin _ _
  · exact addTargets_origin _ _
  · exact addTargets_origin _ _

theorem takeClasses_origin (d : DocTree) : d.takeClasses.2.origin = d.origin := by
  unfold DocTree.takeClasses; split <;> rfl

theorem pushFocus_origin {d d' : DocTree} {data : NodeType} {b : Bool} (h : d.pushDataAndFocus data = .ok (b, d')) :
    d'.origin = d.origin := by
  unfold DocTree.pushDataAndFocus at h
  have e1 := hyperref_origin d data
  have e2 := takeClasses_origin (d.hyperrefActions data).2.2
  rw [e1] at e2
  rw [← e2]
  revert h
  clear e1 e2
  generalize d.hyperrefActions data = x
  obtain ⟨ls, data', d1⟩ := x
  simp only
  generalize d1.takeClasses = y
  obtain ⟨cl, d2⟩ := y
  simp only
  cases d2.tree.pushDataAndFocus data' d2.nodeCount ls cl with
  | error e => simp [bind, Except.bind]
  | ok o =>
    cases o <;> (simp only [bind, Except.bind, pure, Except.pure, Except.ok.injEq, Prod.mk.injEq]; rintro ⟨_, rfl⟩; rfl)

theorem push_origin {d d' : DocTree} {data : NodeType} {b : Bool} (h : d.pushData data = .ok (b, d')) :
    d'.origin = d.origin := by
  unfold DocTree.pushData at h
  have e1 := hyperref_origin d data
  have e2 := takeClasses_origin (d.hyperrefActions data).2.2
  rw [e1] at e2
  rw [← e2]
  revert h
  clear e1 e2
  generalize d.hyperrefActions data = x
  obtain ⟨ls, data', d1⟩ := x
  simp only
  generalize d1.takeClasses = y
  obtain ⟨cl, d2⟩ := y
  simp only
  cases d2.tree.pushData data' d2.nodeCount ls cl with
  | error e => simp [bind, Except.bind]
  | ok o =>
    cases o <;> (simp only [bind, Except.bind, pure, Except.pure, Except.ok.injEq, Prod.mk.injEq]; rintro ⟨_, rfl⟩; rfl)

theorem pushChild_origin {d d' : DocTree} {n : TreeNode} {b : Bool} (h : d.pushChild n = .ok (b, d')) :
    d'.origin = d.origin := by
  unfold DocTree.pushChild at h
  rw [← hyperref_origin d n.data]
  revert h
  generalize d.hyperrefActions n.data = x
  obtain ⟨ls, data', d1⟩ := x
  simp only
  cases d1.tree.pushChild ((n.setData data').setRefnames ls) with
  | error e => simp [bind, Except.bind]
  | ok o =>
    cases o <;> (simp only [bind, Except.bind, pure, Except.pure, Except.ok.injEq, Prod.mk.injEq]; rintro ⟨_, rfl⟩; rfl)

theorem parent_origin {d d' : DocTree} (h : d.focusOnParent = .ok d') : d'.origin = d.origin := by
  unfold DocTree.focusOnParent at h
  cases hp : d.tree.parentOrSelf with
  | error e => simp [hp, bind, Except.bind] at h
  | ok z => simp [hp, bind, Except.bind, pure, Except.pure] at h; subst h; rfl

theorem quiet_origin {d d' : DocTree} (h : Quiet d d') : d'.origin = d.origin := by cases h <;> rfl

theorem popChild_origin (d : DocTree) : d.popChild.2.origin = d.origin := by
  unfold DocTree.popChild; split <;> rfl

theorem build_origin {d d' : DocTree} (h : Build d d') : d'.origin = d.origin := by
  cases h with
  | quiet h => exact quiet_origin h
  | anonTarget => rfl
  | push data hk h => exact push_origin h
  | pushFocus data hk h => exact pushFocus_origin h
  | pushNode data hk h => exact pushChild_origin h
  | parent h => exact parent_origin h
  | openSection t s hf h => exact pushFocus_origin h
  | question p data hq h => rw [pushFocus_origin h]; rfl
  | enumItem data hk h => rw [pushFocus_origin h]; rfl
  | answer a => rfl
  | widths n => rfl
  | emptied i h1 h2 h3 =>
    rw [popChild_origin, parent_origin h3]
    have : ∀ {a b : DocTree}, ReflTransGen Quiet a b → b.origin = a.origin := by
      intro a b h
      induction h with
      | refl => rfl
      | tail _ h ih => rw [quiet_origin h, ih]
    rw [this h2, pushFocus_origin h1]

theorem loose_origin {d d' : DocTree} (h : Loose d d') : d'.origin = d.origin := by
  cases h with
  | build h => exact build_origin h
  | refused data hk h => exact pushFocus_origin h
  | refusedNode data hk h => exact pushChild_origin h
  | refusedSection t s h => exact pushFocus_origin h
  | fields data hk hs => rfl

theorem parsed_origin {fuel : Nat} {stem folder : Str} {lines : List Str} {r : ParsingResult}
    (h : parseDocument fuel stem folder lines = .ok r) : r.doc.origin = (stem, folder) := by
  have := parseDocument_loose h
  have key : ∀ {a b : DocTree}, LooseSteps a b → b.origin = a.origin := by
    intro a b h
    induction h with
    | refl => rfl
    | tail _ h ih => rw [loose_origin h, ih]
  exact key this

theorem transform_origin {d d' : DocTree} (h : d.transform = .ok d') : d'.origin = d.origin := by
  unfold DocTree.transform at h
  cases h1 : d.tree.walkToRoot with
  | error e => simp [h1, bind, Except.bind] at h
  | ok z =>
    cases h2 : transformTree z.node with
    | error e => simp [h1, h2, bind, Except.bind] at h
    | ok t => simp [h1, h2, bind, Except.bind, pure, Except.pure] at h; subst h; rfl

end Rustla
