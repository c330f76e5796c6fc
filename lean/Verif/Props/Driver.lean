import Verif.Lemmas.Driver
import Verif.Props.Writable
import Verif.Props.Options
/-! # C59-C62: reading the source, the place of the output, failures -/
namespace Rustla
open Spec

/-! ## C59 -/

/-- **C59.** Whatever mixture of line endings a UTF-8 text has, and whether or not the last line is ended, its lines are
read without their endings and with nothing else changed. -/
theorem C59_line_endings {ls : List Str} {bs : Bytes} (h : Encodes ls bs) : sourceLines bs = some ls :=
  sourceLines_encodes h

/-- **C59.** Every UTF-8 text is read, and read in the way described by `Encodes`; everything else is refused. -/
theorem C59_every_text (bs : Bytes) :
    (∀ ls, sourceLines bs = some ls ↔ Encodes ls bs) ∧ (sourceLines bs = none ↔ ¬ Utf8 bs) := by
  have hu : Utf8 bs → ∃ ls, Encodes ls bs := by
    rintro ⟨s, rfl⟩
    exact encodes_text s.length s (Nat.le_refl _)
  refine ⟨fun ls => ⟨fun h => ?_, sourceLines_encodes⟩, fun h hb => ?_, fun h => ?_⟩
  · obtain ⟨ls', h'⟩ := hu (sourceLines_utf8 h)
    rw [sourceLines_encodes h'] at h
    rw [← Option.some.inj h]; exact h'
  · obtain ⟨ls', h'⟩ := hu hb
    rw [sourceLines_encodes h'] at h
    cases h
  · cases hs : sourceLines bs with
    | none => rfl
    | some ls => exact absurd (sourceLines_utf8 hs) h

/-- Two inputs deliver the same lines, possibly with different line endings. -/
def SameText (s s' : Stream) : Prop :=
  s.broken = false ∧ s'.broken = false ∧ ∃ ls, Encodes ls s.bytes ∧ Encodes ls s'.bytes

theorem SameText.lines {s s' : Stream} (h : SameText s s') : s.lines = s'.lines := by
  obtain ⟨h1, h2, ls, h3, h4⟩ := h
  simp [Stream.lines, h1, h2, sourceLines_encodes h3, sourceLines_encodes h4]

/-- **C59 (whole program).** In two worlds that differ in the line endings of the sources only, the program does the same. -/
theorem C59_same_run (fuel : Nat) (env : WriterEnv) (w w' : World) (cls : Str) (args : List Str)
    (hc : w'.canonical = w.canonical) (hw : w'.writable = w.writable) (ha : w'.accepts = w.accepts)
    (hi : SameText w.stdin w'.stdin)
    (ho : ∀ p, (w.opened p = none ∧ w'.opened p = none) ∨
      ∃ s s', w.opened p = some s ∧ w'.opened p = some s' ∧ SameText s s') :
    run fuel env w cls args = run fuel env w' cls args := by
  have hr : readSource w args = readSource w' args := by
    have h1 : stdinSource w = stdinSource w' := by unfold stdinSource; rw [hi.lines]
    have h2 : ∀ p, fileSource w p = fileSource w' p := by
      intro p
      unfold fileSource
      rcases ho p with ⟨h1, h2⟩ | ⟨s, s', h1, h2, h3⟩
      · rw [h1, h2]
      · rw [h1, h2]; simp only [h3.lines]
    unfold readSource
    simp only [h1, h2, hc]
  have hp : ∀ t n cs, putChunks w t n cs = putChunks w' t n cs := by
    intro t n cs
    induction cs generalizing n with
    | nil => rfl
    | cons c cs ih => simp only [putChunks, ha, ih]
  have ht : ∀ o out t f, writeTo w o cls out t f = writeTo w' o cls out t f := by
    intro o out t f
    unfold writeTo
    simp only [hp, hw]
  have hout : ∀ e o p d, writeOut e w o cls p d = writeOut e w' o cls p d := by
    intro e o p d
    unfold writeOut
    simp only [ht, hw]
  unfold run
  simp only [hr]
  split
  · rfl
  · unfold process
    simp only [hout]

/-- **C59 (refused input).** If the program reads standard input, or a file, that is not UTF-8, it returns an error and has
no effect. -/
theorem C59_refused (fuel : Nat) (env : WriterEnv) (w : World) (cls : Str) (prog last : Str) (args : List Str)
    (h : (w.canonical last = none ∧ ¬ Utf8 w.stdin.bytes) ∨
      ∃ p s, w.canonical last = some p ∧ w.opened p = some s ∧ ¬ Utf8 s.bytes) :
    run fuel env w cls (prog :: args ++ [last]) = ⟨[], .failed .input⟩ := by
  have hl : (prog :: args ++ [last]).getLast? = some last := List.getLast?_concat ..
  have hn : (prog :: args ++ [last]).length ≠ 1 := by simp
  have hs : ∀ s : Stream, ¬ Utf8 s.bytes → s.lines = none := by
    intro s hb
    unfold Stream.lines
    split
    · rfl
    · exact (C59_every_text _).2.2 hb
  have hr : readSource w (prog :: args ++ [last]) = .error .input := by
    unfold readSource
    rw [hl]
    simp only [hn, if_false]
    rcases h with ⟨h1, h2⟩ | ⟨p, s, h1, h2, h3⟩
    · rw [h1]; simp only [stdinSource, hs _ h2]
    · rw [h1]; simp only [fileSource, h2, hs _ h3]
  unfold run
  rw [hr]

/-- `a`, CR LF, `bé`, LF, `c` without an ending. -/
example : Encodes [str! "a", str! "bé", str! "c"] [97, 13, 10, 98, 195, 169, 10, 99] :=
  .crlf (str! "a") (by decide) (.lf (str! "bé") (by decide) (by decide) (.last (str! "c") (by decide) (by decide)))

/-- The same lines with other endings. -/
example : SameText ⟨[97, 13, 10, 98, 195, 169, 10, 99], false⟩ ⟨[97, 10, 98, 195, 169, 13, 10, 99, 10], false⟩ :=
  ⟨rfl, rfl, [str! "a", str! "bé", str! "c"],
    .crlf (str! "a") (by decide) (.lf (str! "bé") (by decide) (by decide) (.last (str! "c") (by decide) (by decide))),
    .lf (str! "a") (by decide) (by decide) (.crlf (str! "bé") (by decide)
      (.lf (str! "c") (by decide) (by decide) .nil))⟩

/-! ## C60 -/

theorem putChunks_target (w : World) (t : Target) : ∀ (cs : List Str) (n : Nat),
    ∀ e ∈ (putChunks w t n cs).1, ∃ bs, e = .put t bs
  | [], n => by simp [putChunks]
  | c :: cs, n => by
    intro e he
    unfold putChunks at he
    cases h : w.accepts n with
    | none => simp [h] at he
    | some k =>
      simp only [h, List.mem_cons] at he
      rcases he with rfl | he
      · exact ⟨_, rfl⟩
      · exact putChunks_target w t cs (n + 1) e he

/-- What `writeTo` does: it writes to the target, and to the class file if this was asked for. -/
theorem writeTo_effects (w : World) (o : Options) (cls : Str) (out : Written) (t : Target) (folder : Path) :
    ∀ e ∈ (writeTo w o cls out t folder).effects, (∃ bs, e = .put t bs) ∨
      (o.outputStream = .file ∧ o.generateClassFile = true ∧
        (e = .truncate (folder ++ [encode (str! "aplus.cls")]) ∨
          ∃ bs, e = .put (.file (folder ++ [encode (str! "aplus.cls")])) bs)) := by
  have hput := putChunks_target w t out.chunks 0
  intro e he
  unfold writeTo at he
  simp only at he
  split at he
  · exact .inl (hput e he)
  · exact .inl (hput e he)
  · rename_i n _ _
    split at he
    · rename_i hcls
      split at he
      · exact .inl (hput e he)
      · split at he
        all_goals
          simp only [List.mem_append, List.mem_cons] at he
          rcases he with he | rfl | he
          · exact .inl (hput e he)
          · exact .inr ⟨hcls.1, hcls.2, .inl rfl⟩
          · exact .inr ⟨hcls.1, hcls.2, .inr (putChunks_target w _ _ _ e he)⟩
    · exact .inl (hput e he)

/-- What is known if the program has had an effect. -/
structure Acted (fuel : Nat) (w : World) (args : List Str) (path : Option Path) (lines : List Str)
    (stem folder : Str) (d : DocTree) : Prop where
  source : readSource w args = .ok (path, lines)
  isStem : docStem path = .ok stem
  isFolder : docFolder path = .ok folder
  parsed : ∃ r, parseDocument fuel stem folder lines = .ok r ∧ r.doc.transform = .ok d
  origin : d.filenameStem = stem ∧ d.fileFolder = folder

theorem run_cases (fuel : Nat) (env : WriterEnv) (w : World) (cls : Str) (args : List Str) :
    ((run fuel env w cls args).effects = [] ∧ (run fuel env w cls args).ending ≠ .done) ∨
    ∃ path lines stem folder d, Acted fuel w args path lines stem folder d ∧
      run fuel env w cls args =
        writeOut { env with fullDocument := (Options.new args).printFullDocument } w (Options.new args) cls path d := by
  unfold run
  simp only
  cases hr : readSource w args with
  | error e => exact .inl ⟨rfl, by simp⟩
  | ok pl =>
    obtain ⟨path, lines⟩ := pl
    simp only
    unfold process
    cases hs : docStem path with
    | error p => exact .inl ⟨rfl, by simp⟩
    | ok stem =>
      cases hf : docFolder path with
      | error p => exact .inl ⟨rfl, by simp⟩
      | ok folder =>
        simp only
        cases hp : parseDocument fuel stem folder lines with
        | error p => exact .inl ⟨rfl, by simp⟩
        | ok r =>
          simp only
          cases ht : r.doc.transform with
          | error p => exact .inl ⟨rfl, by simp⟩
          | ok d =>
            refine .inr ⟨path, lines, stem, folder, d, ⟨hr, hs, hf, ⟨r, hp, ht⟩, ?_⟩, rfl⟩
            have := (transform_origin ht).trans (parsed_origin hp)
            unfold DocTree.origin at this
            exact ⟨congrArg Prod.fst this, congrArg Prod.snd this⟩

/-- The source is the file given by the last argument if there is a path. -/
theorem readSource_path {w : World} {args : List Str} {p : Path} {ls : List Str}
    (h : readSource w args = .ok (some p, ls)) : ∃ a, args.getLast? = some a ∧ w.canonical a = some p := by
  have hstd : stdinSource w ≠ .ok (some p, ls) := by
    unfold stdinSource
    cases w.stdin.lines <;> simp
  unfold readSource at h
  split at h
  · exact absurd h hstd
  · rename_i a ha
    split at h
    · exact absurd h hstd
    · split at h
      · exact absurd h hstd
      · rename_i q hq
        unfold fileSource at h
        split at h
        · cases h
        · split at h
          · simp only [Except.ok.injEq, Prod.mk.injEq, Option.some.injEq] at h
            exact ⟨a, ha, by rw [hq, h.1]⟩
          · cases h

theorem docStem_spec {p : Path} {stem : Str} (h : docStem (some p) = .ok stem) (hn : stem ≠ []) :
    ∃ name, p.getLast? = some name ∧ StemOf name (encode stem) := by
  unfold docStem at h
  simp only [Option.bind_some] at h
  cases hl : p.getLast? with
  | none => rw [hl] at h; simp only [Except.ok.injEq] at h; exact absurd h.symm hn
  | some name =>
    rw [hl] at h
    simp only at h
    cases hd : decode (stemOf name) with
    | none => simp [hd] at h
    | some s =>
      simp only [hd, Except.ok.injEq] at h
      subst h
      refine ⟨name, rfl, ?_⟩
      rw [encode_decode hd]
      exact stemOf_spec name

/-- **C60 (files).** In every run, whatever the arguments and the answers of the operating system: a file is touched only if
`--to-file` is in force, and then the last argument names the source and the file is the one beside the source with the
source's stem and the extension `tex`, or `aplus.cls` beside the source if `--aplus-cls` was given. -/
theorem C60_files (fuel : Nat) (env : WriterEnv) (w : World) (cls : Str) (args : List Str) (e : Effect)
    (he : e ∈ (run fuel env w cls args).effects) (q : Path) (hq : Touches q e) :
    (Options.new args).outputStream = .file ∧
    ∃ a p, args.getLast? = some a ∧ w.canonical a = some p ∧
      ((∃ name stem, p.getLast? = some name ∧ StemOf name stem ∧ q = beside p (stem ++ encode (str! ".tex"))) ∨
        (str! "--aplus-cls" ∈ args ∧ q = beside p (encode (str! "aplus.cls")))) := by
  rcases run_cases fuel env w cls args with ⟨h0, _⟩ | ⟨path, lines, stem, folder, d, act, hrun⟩
  · rw [h0] at he; cases he
  · rw [hrun] at he
    unfold writeOut at he
    cases ho : (Options.new args).outputStream with
    | stdOut =>
      rw [ho] at he
      simp only at he
      rcases writeTo_effects _ _ _ _ _ _ e he with ⟨bs, rfl⟩ | ⟨h, _⟩
      · exact absurd hq (by simp [Touches])
      · rw [ho] at h; cases h
    | file =>
      rw [ho] at he
      simp only at he
      split at he
      · cases he
      · rename_i hne
        simp only [Bool.or_eq_true, List.isEmpty_iff, not_or] at hne
        rw [act.origin.1, act.origin.2] at hne
        have hpath : ∃ p, path = some p := by
          cases path with
          | none =>
            have := act.isFolder
            simp only [docFolder, Except.ok.injEq] at this
            exact absurd this.symm hne.1
          | some p => exact ⟨p, rfl⟩
        obtain ⟨p, rfl⟩ := hpath
        obtain ⟨a, ha, hp⟩ := readSource_path act.source
        obtain ⟨name, hn1, hn2⟩ := docStem_spec act.isStem hne.2
        refine ⟨rfl, a, p, ha, hp, ?_⟩
        split at he
        · cases he
        · simp only [Option.getD_some, List.mem_cons] at he
          have tex : p.dropLast ++ [encode (d.filenameStem ++ str! ".tex")] =
              beside p (encode stem ++ encode (str! ".tex")) := by
            rw [act.origin.1, encode_append]; rfl
          rcases he with rfl | he
          · refine .inl ⟨name, encode stem, hn1, hn2, ?_⟩
            rw [← tex]; exact hq.symm
          · rcases writeTo_effects _ _ _ _ _ _ e he with ⟨bs, rfl⟩ | ⟨_, hcls, h⟩
            · refine .inl ⟨name, encode stem, hn1, hn2, ?_⟩
              rw [← tex]; exact hq.symm
            · refine .inr ⟨(C01_options args).2.1.1 hcls, ?_⟩
              rcases h with rfl | ⟨bs, rfl⟩
              · exact hq.symm
              · exact hq.symm

/-- **C60 (standard output).** Nothing is written to standard output if `--to-file` is in force. -/
theorem C60_stdout (fuel : Nat) (env : WriterEnv) (w : World) (cls : Str) (args : List Str)
    (h : (Options.new args).outputStream = .file) (bs : Bytes) :
    .put .stdout bs ∉ (run fuel env w cls args).effects := by
  intro he
  rcases run_cases fuel env w cls args with ⟨h0, _⟩ | ⟨path, lines, stem, folder, d, act, hrun⟩
  · rw [h0] at he; cases he
  · rw [hrun] at he
    unfold writeOut at he
    rw [h] at he
    simp only at he
    split at he
    · cases he
    · split at he
      · cases he
      · simp only [List.mem_cons, reduceCtorEq, false_or] at he
        rcases writeTo_effects _ _ _ _ _ _ _ he with ⟨bs', h'⟩ | ⟨_, _, h' | ⟨bs', h'⟩⟩
        · cases h'
        · cases h'
        · cases h'

/-- **C62 (source, partial).** The source file is never touched unless its name ends in `.tex` or is `aplus.cls`.  The full
property, without the condition on the name, is violated: `C62_source_violated`. -/
theorem C62_source_kept_partial (fuel : Nat) (env : WriterEnv) (w : World) (cls : Str) (args : List Str) (a : Str)
    (p : Path) (name : Bytes) (ha : args.getLast? = some a) (hp : w.canonical a = some p)
    (hname : p.getLast? = some name) (htex : ¬ EndsIn name (encode (str! ".tex")))
    (hcls : name ≠ encode (str! "aplus.cls")) :
    ∀ e ∈ (run fuel env w cls args).effects, ¬ Touches p e := by
  intro e he ht
  obtain ⟨_, a', p', ha', hp', h⟩ := C60_files fuel env w cls args e he p ht
  rw [ha] at ha'; cases ha'
  rw [hp] at hp'; cases hp'
  rcases h with ⟨_, stem, _, _, h⟩ | ⟨_, h⟩
  · rw [h] at hname
    simp only [beside, List.getLast?_concat, Option.some.injEq] at hname
    exact htex ⟨stem, hname.symm⟩
  · rw [h] at hname
    simp only [beside, List.getLast?_concat, Option.some.injEq] at hname
    exact hcls hname.symm

/-- **C60 (no place).** With `--to-file` and standard input as the source there is no place for the output: the program
panics without having written anything. -/
theorem C60_no_place (fuel : Nat) (env : WriterEnv) (w : World) (cls : Str) (args : List Str) (ls : List Str)
    (h : (Options.new args).outputStream = .file) (hs : readSource w args = .ok (none, ls)) :
    (run fuel env w cls args).effects = [] ∧ ∃ p, (run fuel env w cls args).ending = .panicked p := by
  unfold run
  rw [hs]
  simp only
  unfold process
  simp only [docStem, docFolder, Option.bind_none]
  cases hp : parseDocument fuel [] [] ls with
  | error p => exact ⟨rfl, p, rfl⟩
  | ok r =>
    simp only
    cases ht : r.doc.transform with
    | error p => exact ⟨rfl, p, rfl⟩
    | ok d =>
      have ho := (transform_origin ht).trans (parsed_origin hp)
      simp only [DocTree.origin, Prod.mk.injEq] at ho
      unfold writeOut
      rw [h]
      simp only [ho.1, ho.2, List.isEmpty_nil, Bool.or_true, if_true]
      exact ⟨trivial, _, rfl⟩

/-! ## C61 -/

/-- **C61 (partial: nothing before the end of the transforms).** If the program has had any effect, then the source was read, and
neither the parser nor the transforms panicked: an error or a panic up to there leaves every file as it was.  A panic of
the writer does not: `C61_earlier_output_violated`. -/
theorem C61_no_effect_before_writing_partial (fuel : Nat) (env : WriterEnv) (w : World) (cls : Str) (args : List Str)
    (h : (run fuel env w cls args).effects ≠ []) :
    ∃ path lines stem folder r d, readSource w args = .ok (path, lines) ∧
      parseDocument fuel stem folder lines = .ok r ∧ r.doc.transform = .ok d := by
  rcases run_cases fuel env w cls args with ⟨h0, _⟩ | ⟨path, lines, stem, folder, d, act, _⟩
  · exact absurd h0 h
  · obtain ⟨r, h1, h2⟩ := act.parsed
    exact ⟨path, lines, stem, folder, r, d, act.source, h1, h2⟩

theorem arrive_append (t : Target) : ∀ (a b : List Effect) (old : Bytes), arrive t old (a ++ b) = arrive t (arrive t old a) b
  | [], _, _ => rfl
  | .truncate q :: a, b, old => by simp only [List.cons_append, arrive]; exact arrive_append t a b _
  | .put u bs :: a, b, old => by simp only [List.cons_append, arrive]; exact arrive_append t a b _

theorem putChunks_all (w : World) (t : Target) : ∀ (cs : List Str) (n : Nat) (old : Bytes),
    (∀ i c, cs[i]? = some c → ∃ k, w.accepts (n + i) = some k ∧ (encode c).length ≤ k) →
    arrive t old (putChunks w t n cs).1 = old ++ encode cs.flatten ∧ (putChunks w t n cs).2 = some (n + cs.length)
  | [], n, old, _ => by simp [putChunks, arrive]
  | c :: cs, n, old, h => by
    obtain ⟨k, hk, hl⟩ := h 0 c rfl
    have ih := putChunks_all w t cs (n + 1) (old ++ encode c) (fun i c' hi => by
      have := h (i + 1) c' hi
      rwa [show n + (i + 1) = n + 1 + i by omega] at this)
    rw [Nat.add_zero] at hk
    simp only [putChunks, hk, arrive, if_true, List.take_of_length_le hl, ih.1, ih.2]
    refine ⟨by simp, ?_⟩
    simp; omega

theorem putChunks_other (w : World) (t u : Target) (h : u ≠ t) (cs : List Str) (n : Nat) (old : Bytes) :
    arrive u old (putChunks w t n cs).1 = old := by
  have key : ∀ (es : List Effect), (∀ e ∈ es, ∃ bs, e = .put t bs) → ∀ old, arrive u old es = old := by
    intro es
    induction es with
    | nil => intro _ _; rfl
    | cons e es ih =>
      intro he old
      obtain ⟨bs, rfl⟩ := he e (by simp)
      simp only [arrive, if_neg (Ne.symm h)]
      exact ih (fun e' h' => he e' (by simp [h'])) old
  exact key _ (putChunks_target w t cs n) old

/-- The stream accepts the chunks of the output, and the class file, as a whole. -/
def AcceptsAll (w : World) (chunks : List Str) : Prop :=
  ∀ i c, chunks[i]? = some c → ∃ k, w.accepts i = some k ∧ (encode c).length ≤ k

/-- **C60 (complete output on standard output).** If the program ends normally and the stream accepts every chunk, standard
output has received exactly the UTF-8 encoding of the generated text. -/
theorem C60_stdout_complete (fuel : Nat) (env : WriterEnv) (w : World) (cls : Str) (args : List Str)
    (ls : List Str) (path : Option Path) (stem folder : Str) (hs : readSource w args = .ok (path, ls))
    (h1 : docStem path = .ok stem) (h2 : docFolder path = .ok folder)
    (ho : (Options.new args).outputStream = .stdOut)
    (hall : AcceptsAll w (transpile fuel { env with fullDocument := (Options.new args).printFullDocument } stem folder
      ls).chunks)
    (hd : (run fuel env w cls args).ending = .done) (old : Bytes) :
    arrive .stdout old (run fuel env w cls args).effects =
      old ++ encode (transpile fuel { env with fullDocument := (Options.new args).printFullDocument } stem folder ls).text := by
  rcases run_cases fuel env w cls args with ⟨_, h⟩ | ⟨path', lines, stem', folder', d, act, hrun⟩
  · exact absurd hd h
  · have e := act.source; rw [hs] at e; cases e
    have e := act.isStem; rw [h1] at e; cases e
    have e := act.isFolder; rw [h2] at e; cases e
    obtain ⟨r, hp, ht⟩ := act.parsed
    have htr : transpile fuel { env with fullDocument := (Options.new args).printFullDocument } stem folder ls =
        writeZipper { env with fullDocument := (Options.new args).printFullDocument } d.tree := by
      unfold transpile; rw [hp]; simp only [ht]
    rw [htr] at hall ⊢
    rw [hrun] at hd ⊢
    unfold writeOut at hd ⊢
    rw [ho] at hd ⊢
    simp only at hd ⊢
    obtain ⟨a1, a2⟩ := putChunks_all w .stdout _ 0 old (by simpa [AcceptsAll] using hall)
    unfold writeTo at hd ⊢
    simp only [a2, ho, reduceCtorEq, false_and, if_false] at hd ⊢
    cases hpan : (writeZipper { env with fullDocument := (Options.new args).printFullDocument } d.tree).panic with
    | some p => simp [hpan] at hd
    | none => simpa [hpan, Written.text] using a1

/-- **C60 (complete output in a file).** If the program ends normally and the streams accept every chunk, the output file
contains exactly the UTF-8 encoding of the generated text, whatever it contained before, and so does the class file, if
one was asked for. -/
theorem C60_file_complete (fuel : Nat) (env : WriterEnv) (w : World) (cls : Str) (args : List Str)
    (ls : List Str) (p : Path) (stem folder : Str) (hs : readSource w args = .ok (some p, ls))
    (h1 : docStem (some p) = .ok stem) (h2 : docFolder (some p) = .ok folder)
    (ho : (Options.new args).outputStream = .file)
    (hall : AcceptsAll w ((transpile fuel { env with fullDocument := (Options.new args).printFullDocument } stem folder
      ls).chunks ++ [cls]))
    (hd : (run fuel env w cls args).ending = .done) (old : Bytes) :
    arrive (.file (beside p (encode (stem ++ str! ".tex")))) old (run fuel env w cls args).effects =
      encode (transpile fuel { env with fullDocument := (Options.new args).printFullDocument } stem folder ls).text ∧
    (str! "--aplus-cls" ∈ args → arrive (.file (beside p (encode (str! "aplus.cls")))) old
      (run fuel env w cls args).effects = encode cls) := by
  rcases run_cases fuel env w cls args with ⟨_, h⟩ | ⟨path', lines, stem', folder', d, act, hrun⟩
  · exact absurd hd h
  · have e := act.source; rw [hs] at e; cases e
    have e := act.isStem; rw [h1] at e; cases e
    have e := act.isFolder; rw [h2] at e; cases e
    obtain ⟨r, hp, ht⟩ := act.parsed
    have htr : transpile fuel { env with fullDocument := (Options.new args).printFullDocument } stem folder ls =
        writeZipper { env with fullDocument := (Options.new args).printFullDocument } d.tree := by
      unfold transpile; rw [hp]; simp only [ht]
    rw [htr] at hall ⊢
    rw [hrun] at hd ⊢
    unfold writeOut at hd ⊢
    rw [ho] at hd ⊢
    simp only [Option.getD_some] at hd ⊢
    rw [act.origin.1] at hd ⊢
    split at hd
    · simp at hd
    · rename_i hne
      rw [if_neg hne]
      split at hd
      · simp at hd
      · rename_i hwr
        rw [if_neg hwr]
        simp only at hd ⊢
        generalize hout : writeZipper { env with fullDocument := (Options.new args).printFullDocument } d.tree = out
          at hall hd ⊢
        have hq : ∀ n, p.dropLast ++ [n] = beside p n := fun _ => rfl
        simp only [hq] at hd ⊢
        have hne : Target.file (beside p (encode (stem ++ str! ".tex"))) ≠
            .file (beside p (encode (str! "aplus.cls"))) := by
          intro e
          simp only [Target.file.injEq, beside, List.append_cancel_left_eq, List.cons.injEq, and_true] at e
          have e := congrArg List.reverse (encode_inj e)
          rw [List.reverse_append] at e
          exact absurd (congrArg List.head? e) (by simp)
        obtain ⟨a1, a2⟩ := putChunks_all w (.file (beside p (encode (stem ++ str! ".tex")))) out.chunks 0 []
          (fun i c hi => by
            have := hall i c (by rw [List.getElem?_append_left]; exact hi; exact (List.getElem?_eq_some_iff.1 hi).1)
            simpa using this)
        have a3 := fun old => putChunks_other w (.file (beside p (encode (stem ++ str! ".tex"))))
          (.file (beside p (encode (str! "aplus.cls")))) (Ne.symm hne) out.chunks 0 old
        obtain ⟨b1, b2⟩ := putChunks_all w (.file (beside p (encode (str! "aplus.cls")))) [cls] out.chunks.length []
          (fun i c hi => by
            cases i with
            | zero =>
              have := hall out.chunks.length c (by simpa using hi)
              simpa using this
            | succ i => simp at hi)
        have b3 := fun old => putChunks_other w (.file (beside p (encode (str! "aplus.cls"))))
          (.file (beside p (encode (stem ++ str! ".tex")))) hne [cls] out.chunks.length old
        unfold writeTo at hd ⊢
        simp only [a2, Nat.zero_add, ho, true_and, hq, b2] at hd ⊢
        cases hpan : out.panic with
        | some pn => simp [hpan] at hd
        | none =>
          simp only [hpan] at hd ⊢
          by_cases hc : (Options.new args).generateClassFile = true
          · simp only [hc, if_true] at hd ⊢
            split at hd
            · simp at hd
            · rename_i hw2
              rw [if_neg hw2]
              simp only [b2]
              simp only [arrive, if_true, arrive_append, a1, if_neg hne, b3, if_neg (Ne.symm hne), a3, b1]
              simp [-encode_append, Written.text]
          · have hc' : str! "--aplus-cls" ∉ args := fun h => hc ((C01_options args).2.1.2 h)
            simp only [hc, Bool.false_eq_true, if_false, arrive, if_true, a1]
            exact ⟨by simp [-encode_append, Written.text], fun h => absurd h hc'⟩

/-! ## Where the properties fail -/

/-- A world with one file, which every argument names, and streams that accept everything. -/
def oneFile (p : Path) (text : Bytes) : World where
  stdin := ⟨[], false⟩
  canonical := fun _ => some p
  opened := fun _ => some ⟨text, false⟩
  writable := fun _ => true
  accepts := fun _ => some 1000

theorem run_oneFile (fuel : Nat) (env : WriterEnv) (cls : Str) (folder stem : Str) (ext : Str) (text : Bytes)
    (ls : List Str) (he : Encodes ls text) (hn : decode (stemOf (encode (stem ++ ext))) = some stem) (args : List Str)
    (ha : 2 ≤ args.length) :
    run fuel env (oneFile [encode folder, encode (stem ++ ext)] text) cls args =
      match parseDocument fuel stem ('/' :: folder) ls with
      | .error p => ⟨[], .panicked p⟩
      | .ok r => match r.doc.transform with
        | .error p => ⟨[], .panicked p⟩
        | .ok d => writeOut { env with fullDocument := (Options.new args).printFullDocument }
          (oneFile [encode folder, encode (stem ++ ext)] text) (Options.new args) cls
          (some [encode folder, encode (stem ++ ext)]) d := by
  have hl : ∃ a, args.getLast? = some a := by
    cases args with
    | nil => simp at ha
    | cons b bs => exact ⟨_, List.getLast?_cons ..⟩
  obtain ⟨a, hl⟩ := hl
  unfold run readSource
  rw [hl]
  simp only [show args.length ≠ 1 by omega, if_false, oneFile, fileSource, Stream.lines, Bool.false_eq_true,
    sourceLines_encodes he]
  unfold process
  have hs : docStem (some [encode folder, encode (stem ++ ext)]) = .ok stem := by
    simp [docStem, -encode_append, hn]
  have hf : docFolder (some [encode folder, encode (stem ++ ext)]) = .ok ('/' :: folder) := by
    simp [docFolder, pathText, decode_encode, -encode_append]
  rw [hs, hf]
  rfl

/-- **C62 is violated (source).** With `--to-file` a source called `t.tex` is overwritten. -/
theorem C62_source_violated : ∃ (w : World) (args : List Str) (a : Str) (p : Path), args.getLast? = some a ∧
    w.canonical a = some p ∧ (run 40 (sampleEnv false) w [] args).ending = .done ∧
    ∃ e ∈ (run 40 (sampleEnv false) w [] args).effects, Touches p e := by
  refine ⟨oneFile [encode (str! "d"), encode (str! "t" ++ str! ".tex")] (encode (str! "word")),
    [str! "rustla", str! "--to-file", str! "t.tex"], str! "t.tex", _, rfl, rfl, ?_⟩
  have hn : decode (stemOf (encode (str! "t" ++ str! ".tex"))) = some (str! "t") := by
    rw [show stemOf (encode (str! "t" ++ str! ".tex")) = encode (str! "t") by decide]
    exact decode_encode _
  rw [run_oneFile 40 (sampleEnv false) [] (str! "d") (str! "t") (str! ".tex") _ _ (.last (str! "word") (by decide) (by decide)) hn
    _ (by decide)]
  refine ⟨by decide +kernel, .truncate [encode (str! "d"), encode (str! "t" ++ str! ".tex")], by decide +kernel, rfl⟩

/-- **C61 is violated (failed runs).** A run that panics while it writes loses the output file of an earlier run. -/
theorem C61_earlier_output_violated : ∃ (w : World) (args : List Str) (q : Path) (pn : Panic),
    (run 40 (sampleEnv false) w [] args).ending = .panicked pn ∧
    ∀ old, arrive (.file q) old (run 40 (sampleEnv false) w [] args).effects = encode (str! "a ") := by
  refine ⟨oneFile [encode (str! "d"), encode (str! "t" ++ str! ".rst")] (encode (str! "a |b| c")),
    [str! "rustla", str! "--to-file", str! "t.rst"], [encode (str! "d"), encode (str! "t.tex")],
    .todo "larst_writer.rs larst_pre_order_string", ?_⟩
  have hn : decode (stemOf (encode (str! "t" ++ str! ".rst"))) = some (str! "t") := by
    rw [show stemOf (encode (str! "t" ++ str! ".rst")) = encode (str! "t") by decide]
    exact decode_encode _
  rw [run_oneFile 40 (sampleEnv false) [] (str! "d") (str! "t") (str! ".rst") _ _ (.last (str! "a |b| c") (by decide) (by decide)) hn
    _ (by decide)]
  refine ⟨by decide +kernel, ?_⟩
  have key : ∀ (es : List Effect) (q : Path) (c : Bytes), es.head? = some (.truncate q) → arrive (.file q) [] es = c →
      ∀ old, arrive (.file q) old es = c := by
    intro es q c h1 h2 old
    cases es with
    | nil => simp at h1
    | cons e es =>
      simp only [List.head?_cons, Option.some.injEq] at h1
      subst h1
      simpa [arrive] using h2
  exact key _ _ _ (by decide +kernel) (by decide +kernel)

/-- The hypotheses of `C60_file_complete` are met by a run on a source `t.rst` with a class file. -/
example : (run 40 (sampleEnv false) (oneFile [encode (str! "d"), encode (str! "t" ++ str! ".rst")] (encode (str! "word")))
    (str! "cls") [str! "rustla", str! "--to-file", str! "--aplus-cls", str! "t.rst"]) =
    ⟨.truncate [encode (str! "d"), encode (str! "t.tex")] ::
      [[], [], str! "word", [], str! "\n\n", []].map (fun c => .put (.file [encode (str! "d"), encode (str! "t.tex")]) (encode c)) ++
      [.truncate [encode (str! "d"), encode (str! "aplus.cls")],
      .put (.file [encode (str! "d"), encode (str! "aplus.cls")]) (encode (str! "cls"))], .done⟩ := by
  have hn : decode (stemOf (encode (str! "t" ++ str! ".rst"))) = some (str! "t") := by
    rw [show stemOf (encode (str! "t" ++ str! ".rst")) = encode (str! "t") by decide]
    exact decode_encode _
  rw [run_oneFile 40 (sampleEnv false) (str! "cls") (str! "d") (str! "t") (str! ".rst") _ _
    (.last (str! "word") (by decide) (by decide)) hn _ (by decide)]
  decide +kernel

end Rustla
