import Verif.Props.Documents
import Verif.Props.Driver
/-!
# From the bytes of the source to the bytes of the output (C77)

`Spec.Source` is where the program gets its source from, `Spec.Encodes` the way lines are stored in a file, `Spec.Paper` the documents of C56.
-/
namespace Rustla
open Spec

theorem source_read {w : World} {args : List Str} {bs : Bytes} {path : Option Path} {ls : List Str} (h : Source w args bs path)
    (he : Encodes ls bs) : readSource w args = .ok (path, ls) := by
  have hl : (⟨bs, false⟩ : Stream).lines = some ls := by simp [Stream.lines, sourceLines_encodes he]
  unfold readSource
  cases h with
  | alone h hin =>
    cases args with
    | nil => simp at h
    | cons a as =>
      rw [List.getLast?_cons]
      simp only [h, if_true, stdinSource, hin, hl]
  | stdin a h hc hin =>
    rw [h]
    simp only [hc, stdinSource, hin, hl]
    split <;> rfl
  | file a q hn h hc hin =>
    rw [h]
    simp only [show args.length ≠ 1 by omega, if_false, hc, fileSource, hin, hl]

theorem stem_encode {name stem : Str} (h : Stem name stem) : decode (stemOf (encode name)) = some stem := by
  have hd : encode ['.'] = [dot] := by decide
  have hc : ∀ c cs, encode (c :: cs) = encode [c] ++ encode cs := fun c cs => encode_append [c] cs
  rw [show stemOf (encode name) = encode stem from ?_]
  · exact decode_encode _
  unfold stemOf
  rcases h with ⟨hn, ext, rfl, he⟩ | ⟨rfl, ht⟩
  · have : beforeLastDot (encode (stem ++ '.' :: ext)) = some (encode stem) :=
      beforeLastDot_some.2 ⟨encode ext, by rw [encode_append, hc, hd]; rfl, fun e => he (dot_encode e)⟩
    rw [this]
    have hne : (encode stem).isEmpty = false := by
      cases h : encode stem with
      | nil => exact absurd (encode_eq_nil h) hn
      | cons _ _ => rfl
    simp [hne]
  · cases hb : beforeLastDot (encode stem) with
    | none => rfl
    | some r =>
      obtain ⟨ext, h1, h2⟩ := beforeLastDot_some.1 hb
      cases stem with
      | nil => simp at h1
      | cons c cs =>
        rw [hc] at h1
        have hin : dot ∉ encode cs := fun e => ht (dot_encode e)
        by_cases hcd : c = '.'
        · subst hcd
          rw [hd] at h1
          cases r with
          | nil => rfl
          | cons b r =>
            simp only [List.cons_append, List.nil_append, List.cons.injEq] at h1
            exact absurd (by rw [h1.2]; simp) hin
        · exfalso
          have : dot ∈ encode [c] ++ encode cs := by rw [h1]; simp
          rcases List.mem_append.1 this with h | h
          · exact hcd (List.mem_singleton.1 (dot_encode h)).symm
          · exact hin h

theorem stem_exists (name : Str) : ∃ stem, Stem name stem := by
  obtain ⟨s, hs⟩ : ∃ s, decode (stemOf (encode name)) = some s ∧ Stem name s := by
    by_cases h : '.' ∈ name.tail
    · have : ∀ l : Str, '.' ∈ l → ∃ a b, l = a ++ '.' :: b ∧ '.' ∉ b := by
        intro l
        induction l with
        | nil => intro h; cases h
        | cons c l ih =>
          intro h
          by_cases hl : '.' ∈ l
          · obtain ⟨a, b, rfl, h2⟩ := ih hl
            exact ⟨c :: a, b, rfl, h2⟩
          · rcases List.mem_cons.1 h with rfl | h
            · exact ⟨[], l, rfl, hl⟩
            · exact absurd h hl
      obtain ⟨a, b, h1, h2⟩ := this _ h
      cases name with
      | nil => cases h
      | cons c cs =>
        have hs : Stem (c :: cs) (c :: a) := .inl ⟨by simp, b, by simp only [List.tail_cons] at h1; rw [h1]; rfl, h2⟩
        exact ⟨_, stem_encode hs, hs⟩
    · exact ⟨name, stem_encode (.inr ⟨rfl, h⟩), .inr ⟨rfl, h⟩⟩
  exact ⟨s, hs.2⟩

theorem decode_all (names : List Str) : (names.map encode).mapM decode = some names := by
  induction names with
  | nil => rfl
  | cons n ns ih => simp [ih, decode_encode]

theorem folder_encode (names : List Str) (name : Str) : docFolder (some (names.map encode ++ [encode name])) =
    .ok (if names = [] then str! "/" else names.flatMap fun n => '/' :: n) := by
  have : ∃ n ns, names.map encode ++ [encode name] = n :: ns := by
    cases names <;> exact ⟨_, _, rfl⟩
  obtain ⟨n, ns, e⟩ := this
  unfold docFolder
  rw [e]
  simp only
  rw [← e, List.dropLast_concat]
  unfold pathText
  rw [decode_all]
  cases names <;> simp

theorem origin_encode (path : Option Path) (h : ∀ q, path = some q → ∃ names : List Str, q = names.map encode) :
    ∃ stem folder, docStem path = .ok stem ∧ docFolder path = .ok folder := by
  cases path with
  | none => exact ⟨[], [], rfl, rfl⟩
  | some q =>
    obtain ⟨names, rfl⟩ := h q rfl
    rcases List.eq_nil_or_concat names with rfl | ⟨ns, n, rfl⟩
    · exact ⟨[], [], rfl, rfl⟩
    · obtain ⟨s, hs⟩ := stem_exists n
      have e : (ns.concat n).map encode = ns.map encode ++ [encode n] := by simp
      rw [e]
      exact ⟨s, _, by simp [docStem, stem_encode hs], folder_encode ns n⟩

theorem dot_split {a b c d : Bytes} (h : a ++ dot :: b = c ++ dot :: d) (hb : dot ∉ b) (hd : dot ∉ d) : a = c := by
  have e1 : beforeLastDot (a ++ dot :: b) = some a := beforeLastDot_some.2 ⟨b, rfl, hb⟩
  rw [beforeLastDot_some.2 ⟨d, h, hd⟩] at e1
  exact (Option.some.inj e1).symm

theorem stem_unique {n a b : Bytes} (ha : StemOf n a) (hb : StemOf n b) : a = b := by
  rcases ha with ⟨ha, x, rfl, hx⟩ | ⟨rfl, ha⟩
  · rcases hb with ⟨_, y, e, hy⟩ | ⟨_, hb⟩
    · exact dot_split e hx hy
    · exact absurd (hb a x rfl hx) ha
  · rcases hb with ⟨hb, y, rfl, hy⟩ | ⟨rfl, _⟩
    · exact absurd (ha b y rfl hy) hb
    · rfl

/-- What a run does if nothing panics. -/
theorem run_transpile {fuel : Nat} {env : WriterEnv} {w : World} {cls : Str} {args : List Str} {path : Option Path} {ls : List Str}
    {stem folder : Str} (hs : readSource w args = .ok (path, ls)) (h1 : docStem path = .ok stem) (h2 : docFolder path = .ok folder)
    (henv : env.fullDocument = (Options.new args).printFullDocument) (hp : (transpile fuel env stem folder ls).panic = none) :
    ∃ d : DocTree, d.filenameStem = stem ∧ d.fileFolder = folder ∧ transpile fuel env stem folder ls = writeZipper env d.tree ∧
      run fuel env w cls args = writeOut env w (Options.new args) cls path d := by
  have he : { env with fullDocument := (Options.new args).printFullDocument } = env := by rw [← henv]
  unfold run
  simp only [hs, he]
  unfold process
  rw [h1, h2]
  simp only
  unfold transpile at hp ⊢
  cases hd : parseDocument fuel stem folder ls with
  | error e => rw [hd] at hp; simp at hp
  | ok r =>
    rw [hd] at hp
    simp only at hp ⊢
    cases ht : r.doc.transform with
    | error e => rw [ht] at hp; simp at hp
    | ok d =>
      have ho := (transform_origin ht).trans (parsed_origin hd)
      simp only [DocTree.origin, Prod.mk.injEq] at ho
      exact ⟨d, ho.1, ho.2, rfl, rfl⟩

theorem chunk_length {cs : List Str} {c : Str} (h : c ∈ cs) : (encode c).length ≤ (encode cs.flatten).length := by
  induction cs with
  | nil => cases h
  | cons x xs ih =>
    simp only [List.flatten_cons, encode_append, List.length_append]
    rcases List.mem_cons.1 h with rfl | h
    · omega
    · have := ih h; omega

theorem accepts_chunks {w : World} {cs : List Str} (h : Accepts w (encode cs.flatten).length) (n : Nat) :
    ∀ i c, cs[i]? = some c → ∃ k, w.accepts (n + i) = some k ∧ (encode c).length ≤ k := by
  intro i c hi
  obtain ⟨k, h1, h2⟩ := h (n + i)
  exact ⟨k, h1, Nat.le_trans (chunk_length (List.mem_of_getElem? hi)) h2⟩

/-- The run for a text that is written to standard output. -/
theorem run_stdout {fuel : Nat} {env : WriterEnv} {w : World} {cls : Str} {args : List Str} {path : Option Path} {ls : List Str}
    {stem folder : Str} (hs : readSource w args = .ok (path, ls)) (h1 : docStem path = .ok stem) (h2 : docFolder path = .ok folder)
    (henv : env.fullDocument = (Options.new args).printFullDocument) (hp : (transpile fuel env stem folder ls).panic = none)
    (ho : (Options.new args).outputStream = .stdOut)
    (hacc : Accepts w (encode (transpile fuel env stem folder ls).text).length) :
    (run fuel env w cls args).ending = .done ∧
    (∀ e ∈ (run fuel env w cls args).effects, ∃ bs, e = .put .stdout bs) ∧
    ∀ old, arrive .stdout old (run fuel env w cls args).effects = old ++ encode (transpile fuel env stem folder ls).text := by
  obtain ⟨d, _, _, ht, hr⟩ := run_transpile (cls := cls) hs h1 h2 henv hp
  rw [ht] at hp hacc ⊢
  rw [hr]
  unfold writeOut
  rw [ho]
  simp only
  have hput := fun old => putChunks_all w .stdout _ 0 old (accepts_chunks hacc 0)
  unfold writeTo
  simp only [(hput []).2, hp, ho, reduceCtorEq, false_and, if_false]
  exact ⟨trivial, putChunks_target w .stdout _ 0, fun old => (hput old).1⟩

/-- The run for a text that is written to a file. -/
theorem run_file {fuel : Nat} {env : WriterEnv} {w : World} {cls : Str} {args : List Str} {q : Path} {ls : List Str}
    {stem folder : Str} (hs : readSource w args = .ok (some q, ls)) (h1 : docStem (some q) = .ok stem) (h2 : docFolder (some q) = .ok folder)
    (hstem : stem ≠ []) (hfolder : folder ≠ [])
    (henv : env.fullDocument = (Options.new args).printFullDocument) (hp : (transpile fuel env stem folder ls).panic = none)
    (ho : (Options.new args).outputStream = .file) (hw : w.writable (beside q (encode (stem ++ str! ".tex"))) = true)
    (hwc : w.writable (beside q (encode (str! "aplus.cls"))) = true)
    (hacc : Accepts w ((encode (transpile fuel env stem folder ls).text).length + (encode cls).length)) :
    (run fuel env w cls args).ending = .done := by
  obtain ⟨d, hd1, hd2, ht, hr⟩ := run_transpile (cls := cls) hs h1 h2 henv hp
  rw [ht] at hp hacc
  rw [hr]
  unfold writeOut
  rw [ho]
  have e1 : (folder.isEmpty || stem.isEmpty) = false := by
    cases stem <;> cases folder <;> simp_all
  have hq : ∀ n, q.dropLast ++ [n] = beside q n := fun _ => rfl
  simp only [hd2, hd1, e1, Bool.false_eq_true, if_false, Option.getD_some, hq, hw, Bool.true_eq_false]
  have hput := putChunks_all w (.file (beside q (encode (stem ++ str! ".tex")))) _ 0 []
    (accepts_chunks (cs := (writeZipper env d.tree).chunks) (w := w) (fun i => by
      obtain ⟨k, a, b⟩ := hacc i
      exact ⟨k, a, Nat.le_trans (Nat.le_add_right _ _) b⟩) 0)
  unfold writeTo
  simp only [hput.2, hp, ho, true_and]
  by_cases hcf : (Options.new args).generateClassFile = true
  · have hcl := putChunks_all w (.file (beside q (encode (str! "aplus.cls")))) [cls] (0 + (writeZipper env d.tree).chunks.length) [] (fun i c hi => by
      obtain ⟨k, a, b⟩ := hacc (0 + (writeZipper env d.tree).chunks.length + i)
      cases i with
      | zero =>
        simp only [List.getElem?_cons_zero, Option.some.injEq] at hi
        subst hi
        exact ⟨k, a, by omega⟩
      | succ i => simp at hi)
    simp only [hcf, if_true, hq, hwc, hcl.2, Bool.true_eq_false, if_false]
  · simp only [hcf, Bool.false_eq_true, if_false]

/-- A document of C56 and the file it is read from. -/
structure Job (w : World) (args : List Str) (env : WriterEnv) (fuel : Nat) (p : Paper) (path : Option Path) : Prop where
  ok : p.Ok
  notEmpty : p.lines ≠ []
  source : ∃ bs, Encodes p.lines bs ∧ Source w args bs path
  utf8 : ∀ q, path = some q → ∃ names : List Str, q = names.map encode
  full : env.fullDocument = true ↔ str! "--full-doc" ∈ args
  fuel : roundsBound (textSize p.lines) ≤ fuel

theorem Job.env {w : World} {args : List Str} {env : WriterEnv} {fuel : Nat} {p : Paper} {path : Option Path} (h : Job w args env fuel p path) :
    env.fullDocument = (Options.new args).printFullDocument := by
  have := h.full.trans (C01_options args).1.symm
  cases a : env.fullDocument <;> cases b : (Options.new args).printFullDocument <;> simp_all

/-- **C77 (standard output).** A source with a document of C56, in any mixture of line endings, from standard input or from a file: unless the last output flag
is `--to-file`, the program ends normally, touches no file, and appends to standard output exactly the encoding of the LaTeX text of the
document, which for `--full-doc` stands between the beginning and the end of a LaTeX document. -/
theorem C77_stdout (fuel : Nat) (env : WriterEnv) (w : World) (cls : Str) (args : List Str) (p : Paper) (path : Option Path)
    (h : Job w args env fuel p path) (ho : lastOutputFlag args ≠ some (str! "--to-file"))
    (hacc : Accepts w (encode (fullText env.fullDocument (p.latex env))).length) :
    (run fuel env w cls args).ending = .done ∧
    (∀ q, ∀ e ∈ (run fuel env w cls args).effects, ¬ Touches q e) ∧
    ∀ old, arrive .stdout old (run fuel env w cls args).effects = old ++ encode (fullText env.fullDocument (p.latex env)) := by
  obtain ⟨bs, henc, hsrc⟩ := h.source
  obtain ⟨stem, folder, h1, h2⟩ := origin_encode path h.utf8
  obtain ⟨k1, k2⟩ := C56_wrapped fuel env stem folder p h.ok h.notEmpty h.fuel
  change _ = fullText env.fullDocument (p.latex env) at k2
  have hso : (Options.new args).outputStream = .stdOut := by
    cases ho' : (Options.new args).outputStream with
    | stdOut => rfl
    | file => exact absurd ((C01_options args).2.2.1 ho') ho
  obtain ⟨a, b, c⟩ := run_stdout (cls := cls) (source_read hsrc henc) h1 h2 h.env k1 hso (by rw [k2]; exact hacc)
  rw [k2] at c
  refine ⟨a, fun q e he ht => ?_, c⟩
  obtain ⟨bs', rfl⟩ := b e he
  exact ht

/-- **C77 (files).** With `--to-file` and a source `folder/name`: the program ends normally, the file `stem.tex` beside the source then contains
exactly the encoding of the LaTeX text, whatever it contained before, with `--aplus-cls` the file `aplus.cls` beside it contains the class, and
no other file is touched. -/
theorem C77_file (fuel : Nat) (env : WriterEnv) (w : World) (cls : Str) (args : List Str) (p : Paper) (names : List Str) (name stem : Str)
    (h : Job w args env fuel p (some (names.map encode ++ [encode name]))) (hn : name ≠ []) (hstem : Stem name stem)
    (ho : lastOutputFlag args = some (str! "--to-file"))
    (hw : ∀ n, w.writable (names.map encode ++ [encode n]) = true)
    (hacc : Accepts w ((encode (fullText env.fullDocument (p.latex env))).length + (encode cls).length)) :
    (run fuel env w cls args).ending = .done ∧
    (∀ old, arrive (.file (names.map encode ++ [encode (stem ++ str! ".tex")])) old (run fuel env w cls args).effects =
      encode (fullText env.fullDocument (p.latex env))) ∧
    (str! "--aplus-cls" ∈ args → ∀ old, arrive (.file (names.map encode ++ [encode (str! "aplus.cls")])) old
      (run fuel env w cls args).effects = encode cls) ∧
    ∀ q, ∀ e ∈ (run fuel env w cls args).effects, Touches q e → q = names.map encode ++ [encode (stem ++ str! ".tex")] ∨
      (str! "--aplus-cls" ∈ args ∧ q = names.map encode ++ [encode (str! "aplus.cls")]) := by
  obtain ⟨bs, henc, hsrc⟩ := h.source
  have h1 : docStem (some (names.map encode ++ [encode name])) = .ok stem := by simp [docStem, stem_encode hstem]
  have h2 := folder_encode names name
  have hf : (if names = [] then str! "/" else names.flatMap fun n => '/' :: n) ≠ [] := by cases names <;> simp
  have hs : stem ≠ [] := by
    rcases hstem with ⟨h, _⟩ | ⟨rfl, _⟩
    · exact h
    · exact hn
  generalize (if names = [] then str! "/" else names.flatMap fun n => '/' :: n) = folder at h2 hf
  obtain ⟨k1, k2⟩ := C56_wrapped fuel env stem folder p h.ok h.notEmpty h.fuel
  change _ = fullText env.fullDocument (p.latex env) at k2
  have hfo : (Options.new args).outputStream = .file := (C01_options args).2.2.2 ho
  have hb : ∀ n, beside (names.map encode ++ [encode name]) n = names.map encode ++ [n] := fun n => by simp [beside]
  have hdone := run_file (cls := cls) (source_read hsrc henc) h1 h2 hs hf h.env k1 hfo (by rw [hb]; exact hw _) (by rw [hb]; exact hw _)
    (by rw [k2]; exact hacc)
  have henv : { env with fullDocument := (Options.new args).printFullDocument } = env := by rw [← h.env]
  have hall : AcceptsAll w ((transpile fuel env stem folder p.lines).chunks ++ [cls]) := by
    intro i c hi
    obtain ⟨k, a, b⟩ := hacc i
    refine ⟨k, a, Nat.le_trans ?_ b⟩
    rcases List.mem_append.1 (List.mem_of_getElem? hi) with hc | hc
    · have := chunk_length hc
      rw [← k2]
      exact Nat.le_trans this (Nat.le_add_right _ _)
    · rw [List.mem_singleton.1 hc]
      exact Nat.le_add_left _ _
  have hcomplete := fun old => C60_file_complete fuel env w cls args p.lines _ stem folder (source_read hsrc henc) h1 h2 hfo
    (by rw [henv]; exact hall) hdone old
  rw [henv, k2] at hcomplete
  simp only [hb] at hcomplete
  refine ⟨hdone, fun old => (hcomplete old).1, fun hc old => (hcomplete old).2 hc, fun q e he ht => ?_⟩
  obtain ⟨_, a, p', ha, hp', hcase⟩ := C60_files fuel env w cls args e he q ht
  cases hsrc with
  | file a' q' _ h' hc' _ =>
    rw [ha] at h'
    cases h'
    rw [hp'] at hc'
    cases hc'
    rcases hcase with ⟨n, s, hl, hst, rfl⟩ | ⟨hc, rfl⟩
    · left
      simp only [List.getLast?_concat, Option.some.injEq] at hl
      subst hl
      rw [hb]
      have : s = encode stem := by
        have e1 := stemOf_spec (encode name)
        have e2 : stemOf (encode name) = encode stem := by
          have := encode_decode (stem_encode hstem)
          exact this.symm
        rw [e2] at e1
        exact stem_unique hst e1
      rw [this, encode_append]
    · exact .inr ⟨hc, hb _⟩

/-- Lines stored with a line feed behind each of them. -/
theorem encodes_lines : ∀ ls : List Str, (∀ l ∈ ls, '\n' ∉ l ∧ l.getLast? ≠ some '\r') → Encodes ls (ls.flatMap fun l => encode (l ++ ['\n']))
  | [], _ => .nil
  | l :: ls, h => .lf l (h l (by simp)).1 (h l (by simp)).2 (encodes_lines ls fun x hx => h x (by simp [hx]))

/-- A world with one file. -/
def sampleWorld (q : Path) (bs : Bytes) : World where
  stdin := ⟨[], false⟩
  canonical := fun _ => some q
  opened := fun _ => some ⟨bs, false⟩
  writable := fun _ => true
  accepts := fun _ => some 100000

/-- The arguments of a run that writes a full document to a file. -/
def sampleArgs : List Str := [str! "rustla", str! "--to-file", str! "--full-doc", str! "--aplus-cls", str! "t.v1.rst"]

/-- The hypotheses of `C77_file` are met: a file `/d/t.v1.rst` with the document of C56. -/
example : (run (roundsBound (textSize samplePaper.lines)) { sampleWriter with fullDocument := true }
      (sampleWorld [encode (str! "d"), encode (str! "t.v1.rst")] (samplePaper.lines.flatMap fun l => encode (l ++ ['\n']))) (str! "cls")
      sampleArgs).ending = .done ∧
    ∀ old, arrive (.file [encode (str! "d"), encode (str! "t.v1.tex")]) old
      (run (roundsBound (textSize samplePaper.lines)) { sampleWriter with fullDocument := true }
        (sampleWorld [encode (str! "d"), encode (str! "t.v1.rst")] (samplePaper.lines.flatMap fun l => encode (l ++ ['\n']))) (str! "cls")
        sampleArgs).effects =
      encode (fullText true (samplePaper.latex { sampleWriter with fullDocument := true })) := by
  have h := C77_file (roundsBound (textSize samplePaper.lines)) { sampleWriter with fullDocument := true }
    (sampleWorld [encode (str! "d"), encode (str! "t.v1.rst")] (samplePaper.lines.flatMap fun l => encode (l ++ ['\n']))) (str! "cls")
    sampleArgs samplePaper [str! "d"] (str! "t.v1.rst") (str! "t.v1")
    { ok := by decide +kernel, notEmpty := by decide +kernel, utf8 := fun q hq => ⟨[str! "d", str! "t.v1.rst"], by cases hq; rfl⟩, full := by decide,
      fuel := Nat.le_refl _,
      source := ⟨_, encodes_lines _ (by decide +kernel), .file (str! "t.v1.rst") _ (by decide) rfl rfl rfl⟩ }
    (by decide) (.inl ⟨by decide, str! "rst", by decide, by decide⟩) (by decide +kernel) (fun _ => rfl)
    (fun i => ⟨100000, rfl, by decide +kernel⟩)
  exact ⟨h.1, h.2.1⟩

/-- The hypotheses of `C77_stdout` are met: the same document on standard input. -/
example : (run (roundsBound (textSize samplePaper.lines)) sampleWriter
      { sampleWorld [] [] with stdin := ⟨samplePaper.lines.flatMap fun l => encode (l ++ ['\n']), false⟩ } [] [str! "rustla"]).ending = .done := by
  have h := C77_stdout (roundsBound (textSize samplePaper.lines)) sampleWriter
    { sampleWorld [] [] with stdin := ⟨samplePaper.lines.flatMap fun l => encode (l ++ ['\n']), false⟩ } [] [str! "rustla"] samplePaper none
    { ok := by decide +kernel, notEmpty := by decide +kernel, utf8 := fun q hq => by cases hq
      full := by decide, fuel := Nat.le_refl _,
      source := ⟨_, encodes_lines _ (by decide +kernel), .alone rfl rfl⟩ } (by decide)
    (fun i => ⟨100000, rfl, by decide +kernel⟩)
  exact h.1

end Rustla
