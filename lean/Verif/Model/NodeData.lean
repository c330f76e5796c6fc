import Verif.Model.Basic
/-! # Data types carried by document nodes (`/repo/src/common.rs` l.84-470, `/repo/src/doctree/directives.rs`) -/
namespace Rustla

/-- `f64` values.  Simplification: a non-negative rational; no rounding, no infinities.
(`/repo/src/common.rs` l.86-86, l.199-199, l.261-261) -/
structure F64 where
  num : Nat
  den : Nat
  deriving DecidableEq, Repr

/-- `AplusQuestionnaireType`, `/repo/src/common.rs` l.95-99. -/
inductive AplusQuestionnaireType where
  | PickOne | PickAny | FreeText
  deriving DecidableEq, Repr

/-- `SectionLineStyle`, `/repo/src/common.rs` l.103-106. -/
inductive SectionLineStyle where
  | OverAndUnder (c : Char)
  | Under (c : Char)
  deriving DecidableEq, Repr

/-- `EnumDelims`, `/repo/src/common.rs` l.111-115. -/
inductive EnumDelims where
  | Period | Parens | RParen
  deriving DecidableEq, Repr

/-- `EnumKind`, `/repo/src/common.rs` l.120-127. -/
inductive EnumKind where
  | Arabic | LowerAlpha | UpperAlpha | LowerRoman | UpperRoman | Automatic
  deriving DecidableEq, Repr

/-- `FootnoteKind`, `/repo/src/common.rs` l.135-145. -/
inductive FootnoteKind where
  | Manual | AutoNumbered | SimpleRefName | AutoSymbol
  deriving DecidableEq, Repr

/-- `LinkTarget`, `/repo/src/common.rs` l.170-174. -/
inductive LinkTarget where
  | Internal (s : Str) | External (s : Str) | Indirect (s : Str)
  deriving DecidableEq, Repr

/-- `Reference`, `/repo/src/common.rs` l.178-182. -/
inductive Reference where
  | Internal (s : Str) | URI (s : Str) | EMail (s : Str)
  deriving DecidableEq, Repr

/-- `InterpretedTextKind`, `/repo/src/common.rs` l.189-193. -/
inductive InterpretedTextKind where
  | Default | RoleThenContent | ContentThenRole
  deriving DecidableEq, Repr

/-- `Length`, `/repo/src/common.rs` l.205-240. -/
inductive Length where
  | Em (n : F64) | Ex (n : F64) | Mm (n : F64) | Cm (n : F64) | In (n : F64) | Px (n : F64) | Pt (n : F64) | Pc (n : F64)
  deriving DecidableEq, Repr

/-- `MetricType`, `/repo/src/common.rs` l.198-201. -/
inductive MetricType where
  | Percentage (n : F64) | Lenght (l : Length)
  deriving DecidableEq, Repr

/-- `TableColWidths`, `/repo/src/common.rs` l.260-263. -/
inductive TableColWidths where
  | Columns (ws : List F64) | Auto
  deriving DecidableEq, Repr

/-- `HorizontalAlignment`, `/repo/src/common.rs` l.268-272. -/
inductive HorizontalAlignment where
  | Left | Center | Right
  deriving DecidableEq, Repr

/-- `ToCBacklinks`, `/repo/src/common.rs` l.289-293. -/
inductive ToCBacklinks where
  | Entry | Top | None
  deriving DecidableEq, Repr

/-- `HTMLAlignment`, `/repo/src/common.rs` l.298-305. -/
inductive HTMLAlignment where
  | Top | Middle | Bottom | Left | Center | Right
  deriving DecidableEq, Repr

/-- `AplusExerciseStatus`, `/repo/src/common.rs` l.388-395. -/
inductive AplusExerciseStatus where
  | Ready | Unlisted | Hidden | Enrollment | EnrollmentExt | Maintenance
  deriving DecidableEq, Repr

/-- `AplusRadarTokenizer`, `/repo/src/common.rs` l.402-409. -/
inductive AplusRadarTokenizer where
  | Python3 | Scala | JavaScript | CSS | HTML | None
  deriving DecidableEq, Repr

/-- `AplusActiveElementClear`, `/repo/src/common.rs` l.415-424. -/
inductive AplusActiveElementClear where
  | Both | Left | Right
  deriving DecidableEq, Repr

/-- `AplusActiveElementInputType`, `/repo/src/common.rs` l.432-441. -/
inductive AplusActiveElementInputType where
  | File | Clickable | Dropdown (s : Str)
  deriving DecidableEq, Repr

/-- `AplusActiveElementOutputType`, `/repo/src/common.rs` l.446-449. -/
inductive AplusActiveElementOutputType where
  | Text | Image
  deriving DecidableEq, Repr

/-- `AdmonitionType`, `/repo/src/doctree/directives.rs` l.44-55. -/
inductive AdmonitionType where
  | Attention | Caution | Danger | Error | Hint | Important | Note | Tip | Warning
  | Admonition (title : Str)
  deriving DecidableEq, Repr

end Rustla
