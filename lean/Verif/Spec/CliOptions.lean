import Verif.Model.CliOptions
/-
What the options of the command ask for (C83).
-/
namespace Srcml.Spec

/-- Is the option there? -/
def given (opts : List CliOpt) (f : CliFlag) : Bool := decide (CliOpt.flag f ∈ opts)

/-- The value of the last of the options that have one. -/
def lastOf {α : Type} (value : CliOpt → Option α) (opts : List CliOpt) : Option α := (opts.filterMap value).getLast?

/-- The value of `--language`. -/
def languageOf : CliOpt → Option Str | .language v => some v | _ => none
/-- The value of `--filename`. -/
def filenameOf : CliOpt → Option Str | .filename v => some v | _ => none
/-- The value of `--url`. -/
def urlOf : CliOpt → Option Str | .url v => some v | _ => none
/-- The value of `--src-version`. -/
def versionOf : CliOpt → Option Str | .srcVersion v => some v | _ => none
/-- The value of `--xml-encoding`. -/
def xmlEncodingOf : CliOpt → Option Str | .xmlEncoding v => some v | _ => none
/-- The value of `--src-encoding`. -/
def srcEncodingOf : CliOpt → Option Str | .srcEncoding v => some v | _ => none
/-- The value of `--tabs`. -/
def tabsOf : CliOpt → Option Nat | .tabs n => some n | _ => none
/-- The value of `--register-ext`. -/
def extensionOf : CliOpt → Option Str | .registerExt v => some v | _ => none
/-- The value of `--show-prefix`. -/
def showPrefixOf : CliOpt → Option Str | .showPrefix v => some v | _ => none
/-- The value of `--pretty`. -/
def prettyOf : CliOpt → Option Str | .pretty v => some v | _ => none
/-- The value of `--unit`. -/
def unitNumberOf : CliOpt → Option Int | .unit n => some n | _ => none
/-- The value of `--revision`. -/
def revisionAsked : CliOpt → Option Nat | .revision n => some n | _ => none
/-- The value of `--output` or `--to-dir`. -/
def outputOf : CliOpt → Option Str | .output v => some v | .toDir v => some v | _ => none
/-- The value of `--eol`. -/
def eolOf : CliOpt → Option Str | .eol v => some v | _ => none
/-- The value of `--text`. -/
def textOf : CliOpt → Option Str | .text v => some v | _ => none

/-- The ends of lines that `--eol` may ask for, in small letters. -/
inductive EolName : Str → Nat → Prop where
  | auto : EolName "auto".toList EOL_AUTO
  | lf : EolName "lf".toList EOL_LF
  | unix : EolName "unix".toList EOL_LF
  | cr : EolName "cr".toList EOL_CR
  | crlf : EolName "crlf".toList EOL_CRLF
  | windows : EolName "windows".toList EOL_CRLF

/-- The output is put into a directory: `--to-dir`, or `--output` with the name of a directory, or one without an extension that ends in a slash. -/
def IntoDirectory (stat : Str → FileKind) : CliOpt → Prop
  | .toDir _ => True
  | .output v => ∃ i, inputSrc stat v = .val i ∧ (i.isdirectory = true ∨ (i.extension = [] ∧ v.getLast? = some '/'))
  | _ => False

/-- `t` is the value of `--xmlns` for the uri `u` of the prefix `p`. -/
inductive XmlnsText : Str → Str → Str → Prop where
  | default {u : Str} : '=' ∉ u → XmlnsText u [] u
  | prefixed {p u : Str} : '=' ∉ p → XmlnsText (p ++ "=".toList ++ u) p u

/-- The last uri that is given for the prefix `p` is `u`. -/
def LastUri (opts : List CliOpt) (p u : Str) : Prop :=
  ∃ before after v, opts = before ++ .xmlns v :: after ∧ XmlnsText v p u ∧ ∀ w, .xmlns w ∈ after → ∀ u', ¬ XmlnsText w p u'

/-- The last prefix that is given for the uri `u` is `p`. -/
def LastPrefix (opts : List CliOpt) (u p : Str) : Prop :=
  ∃ before after v, opts = before ++ .xmlns v :: after ∧ XmlnsText v p u ∧ ∀ w, .xmlns w ∈ after → ∀ p', ¬ XmlnsText w p' u

/-- The default namespace stays that of srcML, or srcML gets another prefix. -/
def DefaultKept (opts : List CliOpt) : Prop :=
  (∀ u, LastUri opts [] u → u = "http://www.srcML.org/srcML/src".toList) ∨ ∃ p, p ≠ [] ∧ LastPrefix opts "http://www.srcML.org/srcML/src".toList p

/-- The names of the inputs, and the inputs, in order: a stylesheet or a schema is not an input. -/
inductive Inputs (stat : Str → FileKind) : List CliOpt → List InputSrc → Prop where
  | nil : Inputs stat [] []
  | input {v : Str} {i : InputSrc} {os : List CliOpt} {is : List InputSrc} : inputSrc stat v = .val i → i.extension ≠ ".xsl".toList → i.extension ≠ ".rng".toList → Inputs stat os is →
      Inputs stat (.input v :: os) (i :: is)
  | style {v : Str} {i : InputSrc} {os : List CliOpt} {is : List InputSrc} : inputSrc stat v = .val i → (i.extension = ".xsl".toList ∨ i.extension = ".rng".toList) → Inputs stat os is →
      Inputs stat (.input v :: os) is
  | text {v : Str} {i : InputSrc} {os : List CliOpt} {is : List InputSrc} : inputSrc stat ("text://".toList ++ v) = .val i → Inputs stat os is → Inputs stat (.text v :: os) (i :: is)
  | list {v : Str} {i : InputSrc} {os : List CliOpt} {is : List InputSrc} : inputSrc stat ("filelist://".toList ++ v) = .val i → Inputs stat os is → Inputs stat (.filesFrom v :: os) (i :: is)
  | other {o : CliOpt} {os : List CliOpt} {is : List InputSrc} : (∀ v, o ≠ .input v ∧ o ≠ .text v ∧ o ≠ .filesFrom v) → Inputs stat os is → Inputs stat (o :: os) is

/-- The options for queries and transformations, in order: a stylesheet or a schema among the inputs is one. -/
inductive Queries (stat : Str → FileKind) : List CliOpt → List TransArg → Prop where
  | nil : Queries stat [] []
  | trans {t : TransArg} {os : List CliOpt} {ts : List TransArg} : Queries stat os ts → Queries stat (.trans t :: os) (t :: ts)
  | xslt {v : Str} {i : InputSrc} {os : List CliOpt} {ts : List TransArg} : inputSrc stat v = .val i → i.extension = ".xsl".toList → Queries stat os ts →
      Queries stat (.input v :: os) (.xslt i.filename :: ts)
  | relaxng {v : Str} {i : InputSrc} {os : List CliOpt} {ts : List TransArg} : inputSrc stat v = .val i → i.extension = ".rng".toList → Queries stat os ts →
      Queries stat (.input v :: os) (.relaxng i.filename :: ts)
  | input {v : Str} {i : InputSrc} {os : List CliOpt} {ts : List TransArg} : inputSrc stat v = .val i → i.extension ≠ ".xsl".toList → i.extension ≠ ".rng".toList → Queries stat os ts →
      Queries stat (.input v :: os) ts
  | other {o : CliOpt} {os : List CliOpt} {ts : List TransArg} : (∀ v, o ≠ .input v) → (∀ t, o ≠ .trans t) → Queries stat os ts → Queries stat (o :: os) ts

/-- An option whose value is accepted. The names of files must not be empty. -/
def ValidOpt (stat : Str → FileKind) (encodings : Str → Bool) : CliOpt → Prop
  | .input v | .output v | .toDir v => ∃ i, inputSrc stat v = .val i
  | .text v => v ≠ [] ∧ v.head? ≠ some '-'
  | .filesFrom v => v ≠ []
  | .language v => v ∈ ["C", "C++", "C#", "Java", "Objective-C"].map String.toList
  | .tabs n => 1 ≤ n ∧ n ≤ 8
  | .xmlEncoding v => v ≠ [] ∧ encodings v = true
  | .eol v => ∃ e, EolName (v.map Char.toLower) e
  | _ => True

/-- The two options must not be given together. -/
inductive Excludes : CliOpt → CliOpt → Prop where
  | src : Excludes (.flag .outputSrc) (.flag .outputSrcml)
  | srcInner : Excludes (.flag .outputSrc) (.flag .outputSrcmlInner)
  | srcOuter : Excludes (.flag .outputSrc) (.flag .outputSrcmlOuter)
  | inner : Excludes (.flag .outputSrcml) (.flag .outputSrcmlInner)
  | outer : Excludes (.flag .outputSrcml) (.flag .outputSrcmlOuter)
  | both : Excludes (.flag .outputSrcmlOuter) (.flag .outputSrcmlInner)
  | output {v w : Str} : Excludes (.output v) (.toDir w)

/-- The options are accepted: each has a value that can be, no two of them exclude each other, the marks fit the queries (C82), there is a way to know the language of a text, and the default namespace is
not lost. -/
structure Accepted (stat : Str → FileKind) (encodings : Str → Bool) (opts : List CliOpt) : Prop where
  values : ∀ o ∈ opts, ValidOpt stat encodings o
  together : ∀ a b, Excludes a b → ¬ (a ∈ opts ∧ b ∈ opts)
  queries : ∀ ts, Queries stat opts ts → ∃ x, transArgs {} ts = some x
  text : lastOf textOf opts ≠ none → lastOf languageOf opts ≠ none ∨ lastOf filenameOf opts ≠ none
  namespaces : DefaultKept opts

end Srcml.Spec
