import Verif.Lemmas.Urls
/-! # E-mail addresses -/
namespace Rustla
open Spec

/-- The character in front of which two texts end. -/
theorem mark_unique {p : Char → Bool} {a b s t : Str} {x y : Char} (ha : ∀ c ∈ a, p c = true) (hb : ∀ c ∈ b, p c = true)
    (hx : p x = false) (hy : p y = false) (e : a ++ x :: s = b ++ y :: t) : a = b ∧ x = y ∧ s = t := by
  have h1 := takeWhile_run (p := p) (w := a) (s := x :: s) ha (by intro c hc; cases hc; exact hx)
  have h2 := takeWhile_run (p := p) (w := b) (s := y :: t) hb (by intro c hc; cases hc; exact hy)
  rw [e, h2.1, h2.2] at h1
  exact ⟨h1.1.symm, (List.cons.inj h1.2).1.symm, (List.cons.inj h1.2).2.symm⟩

/-- All schemes. -/
theorem schemes_all : Schemes schemesRe := by
  refine schemes_alts (by simp) ?_
  simp only [List.forall_mem_cons]
  repeat' apply And.intro
  all_goals first
    | exact schemes_lit (by decide) (by decide +kernel)
    | exact schemes_wild (by decide) (by decide) (by decide)
    | exact schemes_many (by decide) (by decide) fun n => by
        simp [isScheme, List.replicate_succ]
    | (intro r hr; cases hr)

/-- The characters of names. -/
theorem name_text_chars {seps : List Char} {n : Name} (h : n.Ok seps) : n.text ≠ [] ∧ ∀ c ∈ n.text, c.isAlphanum = true ∨ c ∈ seps := by
  obtain ⟨⟨hne, hall⟩, hrest⟩ := h
  refine ⟨by simp [Name.text, hne], fun c hc => ?_⟩
  rcases List.mem_append.mp hc with hc | hc
  · exact .inl (hall c hc)
  · obtain ⟨l, hl, hc⟩ := List.mem_flatten.mp hc
    obtain ⟨p, hp, rfl⟩ := List.mem_map.mp hl
    obtain ⟨h1, _, h3⟩ := hrest p hp
    rcases List.mem_cons.mp hc with rfl | hc
    · exact .inr h1
    · exact .inl (h3 c hc)

theorem name_text_head {seps : List Char} {n : Name} (h : n.Ok seps) : ∃ a t, n.text = a :: t ∧ a.isAlphanum = true := by
  obtain ⟨⟨hne, hall⟩, _⟩ := h
  obtain ⟨a, t, e⟩ := List.exists_cons_of_ne_nil hne
  exact ⟨a, t ++ (n.rest.map fun p => p.1 :: p.2).flatten, by simp [Name.text, e], hall a (by simp [e])⟩

theorem joined_join : ∀ {a b : Str}, (∀ c, a.getLast? = some c → c ≠ '_') → Joined a → Joined b → Joined (a ++ b)
  | [], _, _, _, hb => hb
  | [c], b, hl, _, hb => ⟨fun e => absurd e (hl c rfl), hb⟩
  | c :: d :: a, b, hl, ha, hb => ⟨fun e => ha.1 e, joined_join (a := d :: a) (fun x hx => hl x (by simpa [List.getLast?_cons_cons] using hx)) ha.2 hb⟩

theorem joined_alnum : ∀ {a : Str}, (∀ c ∈ a, c.isAlphanum = true) → Joined a
  | [], _ => trivial
  | c :: a, h => ⟨fun e => absurd (h c (by simp)) (by rw [e]; decide), joined_alnum fun x hx => h x (by simp [hx])⟩

theorem joined_name {seps : List Char} {n : Name} (h : n.Ok seps) : Joined n.text ∧ ∀ c, n.text.getLast? = some c → c.isAlphanum = true := by
  obtain ⟨⟨hne, hall⟩, hrest⟩ := h
  have not_us : ∀ {c : Char}, c.isAlphanum = true → c ≠ '_' := by rintro c h rfl; revert h; decide
  have key : ∀ (l : List (Char × Str)) (w : Str), w ≠ [] → Joined w → (∀ c, w.getLast? = some c → c.isAlphanum = true) →
      (∀ p ∈ l, p.2 ≠ [] ∧ ∀ c ∈ p.2, c.isAlphanum = true) →
      Joined (w ++ (l.map fun p => p.1 :: p.2).flatten) ∧ ∀ c, (w ++ (l.map fun p => p.1 :: p.2).flatten).getLast? = some c → c.isAlphanum = true := by
    intro l
    induction l with
    | nil => intro w _ h1 h2 _; simpa using ⟨h1, h2⟩
    | cons p l ih =>
      intro w _ h1 h2 h3
      obtain ⟨hp, hpa⟩ := h3 p (by simp)
      obtain ⟨d, t, e⟩ := List.exists_cons_of_ne_nil hp
      have := ih (w ++ p.1 :: p.2) (by simp) (joined_join (fun c hc => not_us (h2 c hc)) h1
        ⟨fun _ => ⟨d, by simp [e], hpa d (by simp [e])⟩, joined_alnum hpa⟩) (by
          intro c hc
          rw [show w ++ p.1 :: p.2 = (w ++ [p.1]) ++ p.2 by simp, List.getLast?_append] at hc
          have : p.2.getLast? = some c := by
            cases hl : p.2.getLast? with
            | none => rw [List.getLast?_eq_none_iff] at hl; exact absurd hl hp
            | some y => rw [hl] at hc; simpa using hc
          exact hpa c (List.mem_of_getLast? this)) fun q hq => h3 q (by simp [hq])
      simpa using this
  exact key n.rest n.first hne (joined_alnum hall) (fun c hc => hall c (List.mem_of_getLast? hc)) fun p hp => (hrest p hp).2

/-- The characters of the name of a mail box. -/
theorem box_chars {m : Mail} (h : m.Ok) : ∀ c ∈ m.box, c.isAlphanum = true ∨ c ∈ ['-', '_', '.'] := by
  intro c hc
  rcases List.mem_append.mp hc with hc | hc
  · rcases (name_text_chars h.first).2 c hc with h | h
    · exact .inl h
    · right; simp only [List.mem_cons, List.not_mem_nil, or_false] at h ⊢; tauto
  · obtain ⟨l, hl, hc⟩ := List.mem_flatten.mp hc
    obtain ⟨n, hn, rfl⟩ := List.mem_map.mp hl
    rcases List.mem_cons.mp hc with rfl | hc
    · right; simp
    · rcases (name_text_chars (h.more n hn)).2 c hc with h | h
      · exact .inl h
      · right; simp only [List.mem_cons, List.not_mem_nil, or_false] at h ⊢; tauto

theorem box_joined {m : Mail} (h : m.Ok) : Joined m.box ∧ ∀ c, m.box.getLast? = some c → c.isAlphanum = true := by
  have not_us : ∀ {c : Char}, c.isAlphanum = true → c ≠ '_' := by rintro c h rfl; revert h; decide
  have key : ∀ (l : List Name) (w : Str), Joined w → (∀ c, w.getLast? = some c → c.isAlphanum = true) → (∀ n ∈ l, n.Ok ['-', '_']) →
      Joined (w ++ (l.map fun n => '.' :: n.text).flatten) ∧ ∀ c, (w ++ (l.map fun n => '.' :: n.text).flatten).getLast? = some c → c.isAlphanum = true := by
    intro l
    induction l with
    | nil => intro w h1 h2 _; simpa using ⟨h1, h2⟩
    | cons n l ih =>
      intro w h1 h2 h3
      have hn := h3 n (by simp)
      obtain ⟨j1, j2⟩ := joined_name hn
      have := ih (w ++ '.' :: n.text) (joined_join (fun c hc => not_us (h2 c hc)) h1 ⟨fun e => absurd e (by decide), j1⟩) (by
        intro c hc
        rw [show w ++ '.' :: n.text = (w ++ ['.']) ++ n.text by simp, List.getLast?_append] at hc
        cases hl : n.text.getLast? with
        | none => rw [List.getLast?_eq_none_iff] at hl; exact absurd hl (name_text_chars hn).1
        | some y => rw [hl] at hc; exact j2 c (hl.trans (by simpa using hc))) fun q hq => h3 q (by simp [hq])
      simpa using this
  obtain ⟨j1, j2⟩ := joined_name h.first
  exact key m.more m.first.text j1 j2 h.more

/-- A dotted scheme with an at sign in the middle. -/
theorem at_scheme {a b : Str} (ha : '@' ∉ a) (h : isScheme (a ++ '@' :: b) = true) : a ∈ [str! "iris", str! "soap", str! "xmlrpc", str! "z39"] := by
  have noAt : ∀ s ∈ schemes, '@' ∉ s := by decide +kernel
  unfold isScheme at h
  simp only [Bool.or_eq_true] at h
  rcases h with (h | h) | h
  · rw [List.contains_iff_mem] at h
    exact absurd (by simp) (noAt _ h)
  · rw [List.any_eq_true] at h
    obtain ⟨p, hp, he⟩ := h
    simp only [Bool.and_eq_true, beq_iff_eq] at he
    obtain ⟨e1, e2⟩ := he
    have hpn : '@' ∉ p.1 ∧ '@' ∉ p.2 ∧ p.1 ∈ [str! "iris", str! "soap", str! "xmlrpc", str! "z39"] := by
      have : ∀ p ∈ dottedSchemes, '@' ∉ p.1 ∧ '@' ∉ p.2 ∧ p.1 ∈ [str! "iris", str! "soap", str! "xmlrpc", str! "z39"] := by decide
      exact this p hp
    obtain ⟨k1, k2, k3⟩ := hpn
    have hd := List.take_append_drop p.1.length (a ++ '@' :: b)
    rw [e1] at hd
    cases hx : (a ++ '@' :: b).drop p.1.length with
    | nil =>
      rw [hx, List.append_nil] at hd
      exact absurd (by rw [hd]; simp) k1
    | cons x t =>
      have ht : t = p.2 := by
        rw [← e2, ← List.drop_drop, hx]; rfl
      rw [hx, ht] at hd
      have hxe : x = '@' := by
        have : '@' ∈ p.1 ++ x :: p.2 := by rw [hd]; simp
        simp only [List.mem_append, List.mem_cons, k1, k2, or_false, false_or] at this
        exact this.symm
      subst hxe
      have := mark_unique (p := fun c => c != '@') (x := '@') (y := '@') (a := p.1) (b := a) (by
        intro c hc; simp only [bne_iff_ne]; rintro rfl; exact k1 hc) (by
        intro c hc; simp only [bne_iff_ne]; rintro rfl; exact ha hc) (by decide) (by decide) hd
      rw [← this.1]; exact k3
  · simp only [Bool.and_eq_true, beq_iff_eq] at h
    obtain ⟨e1, e2⟩ := h
    exfalso
    have hd := List.take_append_drop 5 (a ++ '@' :: b)
    rw [e1] at hd
    have : '@' ∈ str! "whois" ++ (a ++ '@' :: b).drop 5 := by rw [hd]; simp
    rcases List.mem_append.mp this with h | h
    · revert h; decide
    · have := List.all_eq_true.mp e2 _ h
      revert this; decide

/-- There is no scheme of an address in front of an e-mail address. -/
theorem mail_scheme_dead {m : Mail} (h : m.Ok) (t : Str) (cs : Caps) (R : Re) :
    (Re.cap .absolute (.seq (.seq (.cap .scheme schemesRe) (.chr ':')) R)).run (m.box ++ '@' :: t) cs = [] := by
  refine run_cap_dead (run_seq_dead ?_)
  rw [List.eq_nil_iff_forall_not_mem]
  intro q hq
  obtain ⟨q1, h1, h2⟩ := mem_seq.mp hq
  obtain ⟨w, q1', e1, h1', rfl⟩ := mem_cap.mp h1
  obtain ⟨t', e2, rfl⟩ := mem_chr.mp h2
  obtain ⟨u, eu, hu, hs⟩ := schemes_all _ _ _ h1'
  simp only at e2
  rw [e2] at eu
  have hbox : ∀ c ∈ m.box, (c != ':' && c != '@') = true := by
    intro c hc
    rcases box_chars h c hc with h | h
    · have : c ≠ ':' ∧ c ≠ '@' := ⟨by rintro rfl; revert h; decide, by rintro rfl; revert h; decide⟩
      simp [this]
    · simp only [List.mem_cons, List.not_mem_nil, or_false] at h
      rcases h with rfl | rfl | rfl <;> decide
  have clash : ∀ {a s : Str}, (∀ c ∈ a, (c != ':' && c != '@') = true) → m.box ++ '@' :: t = a ++ ':' :: s → False := by
    intro a s ha e
    have := mark_unique (p := fun c => c != ':' && c != '@') hbox ha (by decide) (by decide) e
    exact absurd this.2.1 (by decide)
  have al : ∀ {c : Char}, c.isAlphanum = true → (c != ':' && c != '@') = true := by
    intro c h
    have : c ≠ ':' ∧ c ≠ '@' := ⟨by rintro rfl; revert h; decide, by rintro rfl; revert h; decide⟩
    simp [this]
  rcases hu with ⟨_, hu⟩ | ⟨a, x, b, rfl, ha, hb⟩
  · refine clash (fun c hc => ?_) eu
    rcases hu c hc with hc | rfl
    · exact al hc
    · decide
  · have hbb : ∀ c ∈ b, c.isAlphanum = true := by
      have : ∀ b ∈ wildEnds, ∀ c ∈ b, c.isAlphanum = true := by decide
      exact this b hb
    by_cases hx : x = '@'
    · subst hx
      rw [List.append_assoc, List.cons_append] at eu
      have := mark_unique (p := fun c => c != ':' && c != '@') hbox (fun c hc => al (ha c hc)) (by decide) (by decide) eu
      have hat : ∀ {w : Str}, (∀ c ∈ w, c.isAlphanum = true) → '@' ∉ w := fun hw hm => absurd (hw _ hm) (by decide)
      exact h.box (this.1 ▸ at_scheme (hat ha) hs)
    · by_cases hx2 : x = ':'
      · subst hx2
        rw [List.append_assoc, List.cons_append] at eu
        exact clash (fun c hc => al (ha c hc)) eu
      · refine clash (fun c hc => ?_) eu
        simp only [List.mem_append, List.mem_cons] at hc
        rcases hc with hc | rfl | hc
        · exact al (ha c hc)
        · simp [hx, hx2]
        · exact al (hbb c hc)

/-- The parts of the name of a mail box. -/
theorem box_parts {l : List Name} (h : ∀ n ∈ l, n.Ok ['-', '_']) (t : Str) (cs : Caps) :
    First (.star true (.seq (.chr '.') (Re.plus true (.cls clsMailChar2)))) ((l.map fun n => '.' :: n.text).flatten ++ '@' :: t) cs ('@' :: t, cs) := by
  induction l with
  | nil => exact .star_nil (run_seq_dead (run_chr_ne (by decide) _))
  | cons n l ih =>
    have hn := h n (by simp)
    rw [List.map_cons, List.flatten_cons, List.append_assoc]
    refine First.star_cons (q := ((l.map fun n => '.' :: n.text).flatten ++ '@' :: t, cs)) ?_ (by simp; omega) (ih fun n hn => h n (by simp [hn]))
    rw [List.cons_append]
    refine (First.single_chr '.' _ _).seq (First.plus (name_text_chars hn).1 ?_ ?_ _)
    · intro c hc
      rcases (name_text_chars hn).2 c hc with h | h
      · exact alnum_cases (P := clsMailChar2) (by decide +kernel) h
      · simp only [List.mem_cons, List.not_mem_nil, or_false] at h
        rcases h with rfl | rfl <;> decide
    · intro c hc
      cases l with
      | nil => cases hc; decide
      | cons n' l => cases hc; decide

theorem mailChar_name {n : Name} {seps : List Char} (hs : ∀ c ∈ seps, clsMailChar c = true) (h : n.Ok seps) : ∀ c ∈ n.text, clsMailChar c = true := by
  intro c hc
  rcases (name_text_chars h).2 c hc with h | h
  · exact alnum_cases (P := clsMailChar) (by decide +kernel) h
  · exact hs c h

/-- What follows an e-mail address is not a part of it. -/
theorem cut_mail {r : Str} (h : Cut r) (cs : Caps) :
    NoName r ∧ (∀ c, r.head? = some c → clsMailChar c = false) ∧ (Re.seq (.cls clsMailSep) (Re.plus true (.cls clsAlnum))).run r cs = [] := by
  rcases h with ⟨h1, h2⟩ | ⟨e, rfl, he⟩
  · refine ⟨closed_noName h1, ?_, ?_⟩
    · intro c hc
      cases hm : clsMailChar c with
      | false => rfl
      | true =>
        exfalso
        have hal : c.isAlphanum = true ∨ c = '-' ∨ c = '_' := by
          cases hal : c.isAlphanum with
          | true => exact .inl rfl
          | false =>
            right
            have := closed_noName h1 c hc
            have : clsAlnum c = false := noName_cls (closed_noName h1) c hc
            simp only [clsAlnum, Bool.or_eq_false_iff] at this
            simp only [clsMailChar, Bool.or_eq_true, beq_iff_eq, this.1.1, this.1.2, this.2] at hm
            simpa using hm
        rcases hal with h | rfl | rfl
        · rw [closed_noName h1 c hc] at h; cases h
        · exact h2 _ hc (by simp)
        · rcases h1 _ hc with h | h | ⟨h, _⟩
          · revert h; decide
          · revert h; decide
          · revert h; decide
    · refine run_seq_dead ?_
      cases r with
      | nil => rfl
      | cons c r =>
        have := h2 c rfl
        have hc : clsMailSep c = false := by
          simp only [clsMailSep, Bool.or_eq_false_iff, beq_eq_false_iff_ne]
          exact ⟨by rintro rfl; exact this (by simp), by rintro rfl; exact this (by simp)⟩
        simp [Re.run, hc]
  · refine ⟨noName_chr (by decide), by intro c hc; cases hc; decide, ?_⟩
    have hd : (Re.plus true (.cls clsAlnum)).run e cs = [] := by
      refine run_seq_dead ?_
      cases e with
      | nil => rfl
      | cons c e =>
        have : clsAlnum c = false := by
          cases hc : clsAlnum c with
          | false => rfl
          | true => exact absurd (he c rfl) (by rw [cls_nonWs (p := clsAlnum) (by decide) c hc]; decide)
        simp [Re.run, this]
    rw [Re.run, show (Re.cls clsMailSep).run ('.' :: e) cs = [(e, cs)] from by simp [Re.run, show clsMailSep '.' = true from by decide],
      List.flatMap_singleton, hd]

/-- The name of the host of an e-mail address. -/
theorem host_run {m : Mail} (h : m.Ok) {r : Str} (hr : Cut r) (cs : Caps) :
    First (.seq (Re.plus true (.cls clsMailChar)) (.star true (.seq (.cls clsMailSep) (Re.plus true (.cls clsAlnum))))) (m.host ++ r) cs (r, cs) := by
  obtain ⟨h1, h2, h3⟩ := cut_mail hr cs
  obtain ⟨_, hstar⟩ := name_parts (a := .seq (.cls clsMailSep) (Re.plus true (.cls clsAlnum))) (cs := cs) (e := r) (l := m.domain) h1 h3 (by
    intro p hp
    obtain ⟨k1, k2, k3⟩ := h.domain p hp
    have hsep : clsMailSep p.1 = true ∧ p.1.isAlphanum = false := by
      have : (['.', '-'].all fun c => clsMailSep c && !c.isAlphanum) = true := by decide
      simpa using List.all_eq_true.mp this _ k1
    exact ⟨hsep.2, fun rest hr => (First.cls hsep.1 _ _).seq (name_plus k2 k3 hr _)⟩)
  rw [Mail.host, List.append_assoc]
  refine (First.plus (name_text_chars h.site).1 (mailChar_name (by decide) h.site) ?_ _).seq hstar
  intro c hc
  cases hd : m.domain with
  | nil => rw [hd] at hc; exact h2 c hc
  | cons p ps =>
    rw [hd] at hc
    have := h.dot p (by rw [hd]; simp)
    cases hc
    rw [this]; decide

/-- The parts of the pattern for an e-mail address. -/
theorem mail_captures {m : Mail} (h : m.Ok) {r : Str} (hr : Cut r) :
    ∃ w t v, reUri.captures (m.text ++ r) = some ⟨w, t, (.lookahead, v) :: (.content, m.text) :: (.email, m.text) :: []⟩ := by
  obtain ⟨dots, e, hre, he, hcl⟩ := cut_end hr
  have etext : m.text ++ r = m.first.text ++ ((m.more.map fun n => '.' :: n.text).flatten ++ '@' :: (m.host ++ r)) := by
    simp [Mail.text, Mail.box]
  have hmail : First emailRe (m.text ++ r) [] (r, (.email, m.text) :: []) := by
    refine First.cap ?_
    rw [etext]
    refine (First.plus (name_text_chars h.first).1 (mailChar_name (by decide) h.first) ?_ _).seq ((box_parts h.more _ _).seq
      ((First.single_chr '@' _ _).seq (host_run h hr _)))
    intro c hc
    cases hm : m.more with
    | nil => rw [hm] at hc; cases hc; decide
    | cons n l => rw [hm] at hc; cases hc; decide
  have hdead := mail_scheme_dead h (m.host ++ r) [] (.seq (Re.opt authorityRe) (.seq (.cap .path pathRe) uriEndRe))
  rw [show m.box ++ '@' :: (m.host ++ r) = m.text ++ r by simp [Mail.text]] at hdead
  obtain ⟨q, hla⟩ := ahead_first he.dots hcl ((.content, m.text) :: (.email, m.text) :: [])
  rw [← hre] at hla
  obtain ⟨a, s, ea, haa⟩ := name_text_head h.first
  have hb : First (Re.opt (.cap .lookbehind (.alt (.cls isWs) (.cls clsUriLookbehind)))) (m.text ++ r) [] (m.text ++ r, []) := by
    rw [etext, ea]
    have h := alnum_uriBehind haa
    simp only [Bool.or_eq_false_iff] at h
    exact First.opt_none (run_cap_dead (run_alt_dead (by simp [Re.run, h.1]) (by simp [Re.run, h.2])))
  have hall := hb.seq ((First.cap (g := .content) (First.right hdead hmail)).seq hla)
  rw [← reUri_eq] at hall
  obtain ⟨w, t', hw⟩ := hall.captures'
  exact ⟨w, t', _, hw⟩

/-- An e-mail address is not a reference. -/
theorem mail_simple {m : Mail} (h : m.Ok) (t : Str) : reSimpleRef.captures (m.box ++ '@' :: t) = none := by
  have hbox : ∀ c ∈ m.box, (c != '@') = true := by
    intro c hc
    simp only [bne_iff_ne]
    rintro rfl
    rcases box_chars h _ hc with h | h
    · revert h; decide
    · revert h; decide
  obtain ⟨hj, _⟩ := box_joined h
  have hb : ∀ a l, m.box ++ '@' :: t = a :: l → clsLookbehind a = false := by
    intro a l e
    obtain ⟨b, s, eb, hb⟩ := name_text_head h.first
    rw [Mail.box, eb] at e
    cases e
    exact alnum_behind hb
  rw [Re.captures_none_iff, reSimpleRef, Re.run, List.flatMap_eq_nil_iff]
  intro q hq
  rcases behind_cases hq with e' | ⟨a, e', ha⟩
  · rw [e', List.eq_nil_iff_forall_not_mem]
    intro p hp
    obtain ⟨q1, h1, h2⟩ := mem_seq.mp hp
    obtain ⟨q2, h3, h4⟩ := mem_seq.mp h2
    obtain ⟨_, q1', -, h1', rfl⟩ := mem_cap.mp h1
    obtain ⟨_, q2', -, h3', rfl⟩ := mem_cap.mp h3
    obtain ⟨q3, h5, h6⟩ := mem_seq.mp h3'
    obtain ⟨t', e3, rfl⟩ := mem_chr.mp h5
    have hal : Consumes (fun c => (c != '@') = true) (.cls clsAlnum) := .cls (by intro c hc; rw [bne_iff_ne]; rintro rfl; revert hc; decide)
    have hpl : Consumes (fun c => (c != '@') = true) (Re.plus true (.cls clsAlnum)) := .seq hal (.star hal)
    obtain ⟨m1, e4, hm1⟩ := Consumes.seq hpl (Consumes.star (g := true) (.seq (.cls (p := clsSimpleRefSep)
      (by intro c hc; rw [bne_iff_ne]; rintro rfl; revert hc; decide)) hpl)) _ _ _ h1'
    simp only at e3
    rw [e3] at e4
    obtain ⟨l, el, et⟩ : ∃ l, m.box = m1 ++ '_' :: l ∧ t' = l ++ '@' :: t := by
      rcases List.append_eq_append_iff.mp e4 with ⟨l, h, h'⟩ | ⟨l, h, h'⟩
      · cases l with
        | nil => cases h'
        | cons x l =>
          cases h'
          exact absurd (hm1 '@' (by rw [h]; simp)) (by decide)
      · cases l with
        | nil => cases h'
        | cons x l => cases h'; exact ⟨l, h, rfl⟩
    rw [el] at hj
    obtain ⟨d, hd, hda⟩ := joined_split hj
    obtain ⟨l', rfl⟩ : ∃ l', l = d :: l' := by
      cases l with
      | nil => cases hd
      | cons x l' => cases hd; exact ⟨l', rfl⟩
    have hdu : d ≠ '_' := by rintro rfl; revert hda; decide
    have ht : q2'.1 = d :: (l' ++ '@' :: t) := by
      rcases mem_opt.mp h6 with h6 | rfl
      · obtain ⟨t'', e', _⟩ := mem_chr.mp h6
        rw [show ({ fst := t', snd := q1'.2 : Str × Caps }).1 = t' from rfl, et] at e'
        simp only [List.cons_append, List.cons.injEq] at e'
        exact absurd e'.1 hdu
      · exact et
    obtain ⟨m2, q4, e5, h7, rfl⟩ := mem_cap.mp h4
    simp only [ht] at h7
    rcases mem_alt.mp h7 with h7 | h7
    · obtain ⟨c, t', e', hc, _⟩ := mem_cls.mp h7
      cases e'
      rw [alnum_not_ws hda] at hc; cases hc
    · rcases mem_alt.mp h7 with h7 | h7
      · obtain ⟨c, t', e', hc, _⟩ := mem_cls.mp h7
        cases e'
        rw [alnum_ahead hda] at hc; cases hc
      · exact absurd (mem_eos.mp h7).1 (by simp)
  · rw [hb _ _ e'] at ha; cases ha

end Rustla
