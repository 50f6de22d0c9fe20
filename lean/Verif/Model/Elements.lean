import Verif.Model.Basic
/-
The table of srcML elements. Generated from /repo/src/parser/srcMLOutputElements.hpp by
tools/elements.py; one row per line of the C++ table, in its order.
-/
namespace Srcml

open Lean in
/-- A string literal as the list of its characters, expanded when the file is read. -/
macro "chars!" s:str : term => do
  let cs := s.getString.toList.toArray.map (fun c => Syntax.mkCharLit c)
  `([ $cs,* ])

/-- `PREFIXES`, src/parser/srcMLOutput.hpp:42-47: positions in the namespace table. -/
inductive Prefixes where
  | SRC | CPP | ERR | POS | OMP
  deriving DecidableEq, Repr

/-- `Element`, src/parser/srcMLOutput.hpp:51-58. -/
structure Element where
  name : Str
  pre : Prefixes
  attrName : Option Str
  attrValue : Option Str
  attr2Name : Option Str
  attr2Value : Option Str
  deriving DecidableEq, Repr

/-- The type of a token: the name of its enumerator in the generated `srcMLParserTokenTypes`. Used in src/parser/srcMLOutput.cpp:533-564. -/
abbrev TokType := Str

/-- `srcMLOutput::process`, src/parser/srcMLOutputElements.hpp:31-324. -/
def processTable : List (TokType × Element) := [
  (chars! "SCOMMENT", ⟨chars! "comment", .SRC, (some (chars! "type")), (some (chars! "block")), none, none⟩),
  (chars! "SLINECOMMENT", ⟨chars! "comment", .SRC, (some (chars! "type")), (some (chars! "line")), none, none⟩),
  (chars! "SLINE_DOXYGEN_COMMENT", ⟨chars! "comment", .SRC, (some (chars! "type")), (some (chars! "line")), (some (chars! "format")), (some (chars! "doxygen"))⟩),
  (chars! "SJAVADOC_COMMENT", ⟨chars! "comment", .SRC, (some (chars! "type")), (some (chars! "block")), (some (chars! "format")), (some (chars! "javadoc"))⟩),
  (chars! "SDOXYGEN_COMMENT", ⟨chars! "comment", .SRC, (some (chars! "type")), (some (chars! "block")), (some (chars! "format")), (some (chars! "doxygen"))⟩),
  (chars! "SSTRING", ⟨chars! "literal", .SRC, (some (chars! "type")), (some (chars! "string")), none, none⟩),
  (chars! "SCHAR", ⟨chars! "literal", .SRC, (some (chars! "type")), (some (chars! "char")), none, none⟩),
  (chars! "SLITERAL", ⟨chars! "literal", .SRC, (some (chars! "type")), (some (chars! "number")), none, none⟩),
  (chars! "SBOOLEAN", ⟨chars! "literal", .SRC, (some (chars! "type")), (some (chars! "boolean")), none, none⟩),
  (chars! "SNULL", ⟨chars! "literal", .SRC, (some (chars! "type")), (some (chars! "null")), none, none⟩),
  (chars! "SCOMPLEX", ⟨chars! "literal", .SRC, (some (chars! "type")), (some (chars! "complex")), none, none⟩),
  (chars! "SOPERATOR", ⟨chars! "operator", .SRC, none, none, none, none⟩),
  (chars! "SMODIFIER", ⟨chars! "modifier", .SRC, none, none, none, none⟩),
  (chars! "SNAME", ⟨chars! "name", .SRC, none, none, none, none⟩),
  (chars! "SONAME", ⟨[], .SRC, none, none, none, none⟩),
  (chars! "SCNAME", ⟨chars! "name", .SRC, none, none, none, none⟩),
  (chars! "STYPE", ⟨chars! "type", .SRC, none, none, none, none⟩),
  (chars! "STYPEPREV", ⟨chars! "type", .SRC, (some (chars! "ref")), (some (chars! "prev")), none, none⟩),
  (chars! "SCONDITION", ⟨chars! "condition", .SRC, none, none, none, none⟩),
  (chars! "SBLOCK", ⟨chars! "block", .SRC, none, none, none, none⟩),
  (chars! "SCONTENT", ⟨chars! "block_content", .SRC, none, none, none, none⟩),
  (chars! "SPSEUDO_BLOCK", ⟨chars! "block", .SRC, (some (chars! "type")), (some (chars! "pseudo")), none, none⟩),
  (chars! "SINDEX", ⟨chars! "index", .SRC, none, none, none, none⟩),
  (chars! "SDECLTYPE", ⟨chars! "decltype", .SRC, none, none, none, none⟩),
  (chars! "STYPENAME", ⟨chars! "typename", .SRC, none, none, none, none⟩),
  (chars! "SATOMIC", ⟨chars! "atomic", .SRC, none, none, none, none⟩),
  (chars! "SSTATIC_ASSERT_STATEMENT", ⟨chars! "assert", .SRC, (some (chars! "type")), (some (chars! "static")), none, none⟩),
  (chars! "SGENERIC_SELECTION", ⟨chars! "generic_selection", .SRC, none, none, none, none⟩),
  (chars! "SGENERIC_SELECTOR", ⟨chars! "selector", .SRC, none, none, none, none⟩),
  (chars! "SGENERIC_ASSOCIATION_LIST", ⟨chars! "association_list", .SRC, none, none, none, none⟩),
  (chars! "SGENERIC_ASSOCIATION", ⟨chars! "association", .SRC, none, none, none, none⟩),
  (chars! "SEXPRESSION_STATEMENT", ⟨chars! "expr_stmt", .SRC, none, none, none, none⟩),
  (chars! "SEXPRESSION", ⟨chars! "expr", .SRC, none, none, none, none⟩),
  (chars! "SDECLARATION_STATEMENT", ⟨chars! "decl_stmt", .SRC, none, none, none, none⟩),
  (chars! "SDECLARATION", ⟨chars! "decl", .SRC, none, none, none, none⟩),
  (chars! "SDECLARATION_INITIALIZATION", ⟨chars! "init", .SRC, none, none, none, none⟩),
  (chars! "SDECLARATION_RANGE", ⟨chars! "range", .SRC, none, none, none, none⟩),
  (chars! "SBREAK_STATEMENT", ⟨chars! "break", .SRC, none, none, none, none⟩),
  (chars! "SCONTINUE_STATEMENT", ⟨chars! "continue", .SRC, none, none, none, none⟩),
  (chars! "SGOTO_STATEMENT", ⟨chars! "goto", .SRC, none, none, none, none⟩),
  (chars! "SLABEL_STATEMENT", ⟨chars! "label", .SRC, none, none, none, none⟩),
  (chars! "STYPEDEF", ⟨chars! "typedef", .SRC, none, none, none, none⟩),
  (chars! "SASM", ⟨chars! "asm", .SRC, none, none, none, none⟩),
  (chars! "SMACRO_CALL", ⟨chars! "macro", .SRC, none, none, none, none⟩),
  (chars! "SENUM", ⟨chars! "enum", .SRC, none, none, none, none⟩),
  (chars! "SENUM_DECLARATION", ⟨chars! "enum_decl", .SRC, none, none, none, none⟩),
  (chars! "SIF_STATEMENT", ⟨chars! "if_stmt", .SRC, none, none, none, none⟩),
  (chars! "SIF", ⟨chars! "if", .SRC, none, none, none, none⟩),
  (chars! "STERNARY", ⟨chars! "ternary", .SRC, none, none, none, none⟩),
  (chars! "STHEN", ⟨chars! "then", .SRC, none, none, none, none⟩),
  (chars! "SELSE", ⟨chars! "else", .SRC, none, none, none, none⟩),
  (chars! "SELSEIF", ⟨chars! "if", .SRC, (some (chars! "type")), (some (chars! "elseif")), none, none⟩),
  (chars! "SWHILE_STATEMENT", ⟨chars! "while", .SRC, none, none, none, none⟩),
  (chars! "STYPEOF", ⟨chars! "typeof", .SRC, none, none, none, none⟩),
  (chars! "SDO_STATEMENT", ⟨chars! "do", .SRC, none, none, none, none⟩),
  (chars! "SSWITCH", ⟨chars! "switch", .SRC, none, none, none, none⟩),
  (chars! "SCASE", ⟨chars! "case", .SRC, none, none, none, none⟩),
  (chars! "SDEFAULT", ⟨chars! "default", .SRC, none, none, none, none⟩),
  (chars! "SFOR_STATEMENT", ⟨chars! "for", .SRC, none, none, none, none⟩),
  (chars! "SFOREACH_STATEMENT", ⟨chars! "foreach", .SRC, none, none, none, none⟩),
  (chars! "SCONTROL", ⟨chars! "control", .SRC, none, none, none, none⟩),
  (chars! "SCONTROL_INITIALIZATION", ⟨chars! "init", .SRC, none, none, none, none⟩),
  (chars! "SCONTROL_CONDITION", ⟨chars! "condition", .SRC, none, none, none, none⟩),
  (chars! "SCONTROL_INCREMENT", ⟨chars! "incr", .SRC, none, none, none, none⟩),
  (chars! "SFOR_LIKE_CONTROL", ⟨chars! "init", .SRC, none, none, none, none⟩),
  (chars! "SFUNCTION_DEFINITION", ⟨chars! "function", .SRC, none, none, none, none⟩),
  (chars! "SFUNCTION_DECLARATION", ⟨chars! "function_decl", .SRC, none, none, none, none⟩),
  (chars! "SFUNCTION_LAMBDA", ⟨chars! "lambda", .SRC, none, none, none, none⟩),
  (chars! "SFUNCTION_SPECIFIER", ⟨chars! "specifier", .SRC, none, none, none, none⟩),
  (chars! "SRETURN_STATEMENT", ⟨chars! "return", .SRC, none, none, none, none⟩),
  (chars! "SFUNCTION_CALL", ⟨chars! "call", .SRC, none, none, none, none⟩),
  (chars! "SSIZEOF_CALL", ⟨chars! "sizeof", .SRC, none, none, none, none⟩),
  (chars! "SPARAMETER_LIST", ⟨chars! "parameter_list", .SRC, none, none, none, none⟩),
  (chars! "SPARAMETER", ⟨chars! "parameter", .SRC, none, none, none, none⟩),
  (chars! "SKRPARAMETER_LIST", ⟨chars! "krparameter_list", .SRC, none, none, none, none⟩),
  (chars! "SKRPARAMETER", ⟨chars! "krparameter", .SRC, none, none, none, none⟩),
  (chars! "SARGUMENT_LIST", ⟨chars! "argument_list", .SRC, none, none, none, none⟩),
  (chars! "SARGUMENT", ⟨chars! "argument", .SRC, none, none, none, none⟩),
  (chars! "SLAMBDA_CAPTURE", ⟨chars! "capture", .SRC, none, none, none, none⟩),
  (chars! "SPSEUDO_PARAMETER_LIST", ⟨chars! "parameter_list", .SRC, (some (chars! "type")), (some (chars! "pseudo")), none, none⟩),
  (chars! "SINDEXER_PARAMETER_LIST", ⟨chars! "parameter_list", .SRC, (some (chars! "type")), (some (chars! "indexer")), none, none⟩),
  (chars! "SSTRUCT", ⟨chars! "struct", .SRC, none, none, none, none⟩),
  (chars! "SSTRUCT_DECLARATION", ⟨chars! "struct_decl", .SRC, none, none, none, none⟩),
  (chars! "SUNION", ⟨chars! "union", .SRC, none, none, none, none⟩),
  (chars! "SUNION_DECLARATION", ⟨chars! "union_decl", .SRC, none, none, none, none⟩),
  (chars! "SCLASS", ⟨chars! "class", .SRC, none, none, none, none⟩),
  (chars! "SCLASS_DECLARATION", ⟨chars! "class_decl", .SRC, none, none, none, none⟩),
  (chars! "SPUBLIC_ACCESS", ⟨chars! "public", .SRC, none, none, none, none⟩),
  (chars! "SPUBLIC_ACCESS_DEFAULT", ⟨chars! "public", .SRC, (some (chars! "type")), (some (chars! "default")), none, none⟩),
  (chars! "SPRIVATE_ACCESS", ⟨chars! "private", .SRC, none, none, none, none⟩),
  (chars! "SPRIVATE_ACCESS_DEFAULT", ⟨chars! "private", .SRC, (some (chars! "type")), (some (chars! "default")), none, none⟩),
  (chars! "SPROTECTED_ACCESS", ⟨chars! "protected", .SRC, none, none, none, none⟩),
  (chars! "SPROTECTED_ACCESS_DEFAULT", ⟨chars! "protected", .SRC, (some (chars! "type")), (some (chars! "default")), none, none⟩),
  (chars! "SSIGNAL_ACCESS", ⟨chars! "signals", .SRC, none, none, none, none⟩),
  (chars! "SFOREVER_STATEMENT", ⟨chars! "forever", .SRC, none, none, none, none⟩),
  (chars! "SEMIT_STATEMENT", ⟨chars! "emit", .SRC, none, none, none, none⟩),
  (chars! "SMEMBER_INITIALIZATION_LIST", ⟨chars! "member_init_list", .SRC, none, none, none, none⟩),
  (chars! "SMEMBER_INITIALIZATION", ⟨chars! "call", .SRC, none, none, none, none⟩),
  (chars! "SCONSTRUCTOR_DEFINITION", ⟨chars! "constructor", .SRC, none, none, none, none⟩),
  (chars! "SCONSTRUCTOR_DECLARATION", ⟨chars! "constructor_decl", .SRC, none, none, none, none⟩),
  (chars! "SDESTRUCTOR_DEFINITION", ⟨chars! "destructor", .SRC, none, none, none, none⟩),
  (chars! "SDESTRUCTOR_DECLARATION", ⟨chars! "destructor_decl", .SRC, none, none, none, none⟩),
  (chars! "SDERIVATION_LIST", ⟨chars! "super_list", .SRC, none, none, none, none⟩),
  (chars! "SDERIVATION", ⟨chars! "super", .SRC, none, none, none, none⟩),
  (chars! "SFRIEND", ⟨chars! "friend", .SRC, none, none, none, none⟩),
  (chars! "SCLASS_SPECIFIER", ⟨chars! "specifier", .SRC, none, none, none, none⟩),
  (chars! "SEXTERN", ⟨chars! "extern", .SRC, none, none, none, none⟩),
  (chars! "SNAMESPACE", ⟨chars! "namespace", .SRC, none, none, none, none⟩),
  (chars! "SUSING_DIRECTIVE", ⟨chars! "using", .SRC, none, none, none, none⟩),
  (chars! "STRY_BLOCK", ⟨chars! "try", .SRC, none, none, none, none⟩),
  (chars! "SCATCH_BLOCK", ⟨chars! "catch", .SRC, none, none, none, none⟩),
  (chars! "SFINALLY_BLOCK", ⟨chars! "finally", .SRC, none, none, none, none⟩),
  (chars! "STHROW_STATEMENT", ⟨chars! "throw", .SRC, none, none, none, none⟩),
  (chars! "STHROW_SPECIFIER", ⟨chars! "throw", .SRC, none, none, none, none⟩),
  (chars! "STHROW_SPECIFIER_JAVA", ⟨chars! "throws", .SRC, none, none, none, none⟩),
  (chars! "SNOEXCEPT", ⟨chars! "noexcept", .SRC, none, none, none, none⟩),
  (chars! "STEMPLATE", ⟨chars! "template", .SRC, none, none, none, none⟩),
  (chars! "SGENERIC_ARGUMENT", ⟨chars! "argument", .SRC, none, none, none, none⟩),
  (chars! "SGENERIC_ARGUMENT_LIST", ⟨chars! "argument_list", .SRC, (some (chars! "type")), (some (chars! "generic")), none, none⟩),
  (chars! "STEMPLATE_PARAMETER", ⟨chars! "parameter", .SRC, none, none, none, none⟩),
  (chars! "STEMPLATE_PARAMETER_LIST", ⟨chars! "parameter_list", .SRC, none, none, none, none⟩),
  (chars! "SGENERIC_PARAMETER", ⟨chars! "parameter", .SRC, none, none, none, none⟩),
  (chars! "SGENERIC_PARAMETER_LIST", ⟨chars! "parameter_list", .SRC, (some (chars! "type")), (some (chars! "generic")), none, none⟩),
  (chars! "SCPP_DIRECTIVE", ⟨chars! "directive", .CPP, none, none, none, none⟩),
  (chars! "SCPP_FILENAME", ⟨chars! "file", .CPP, none, none, none, none⟩),
  (chars! "SCPP_NUMBER", ⟨chars! "number", .CPP, none, none, none, none⟩),
  (chars! "SCPP_LITERAL", ⟨chars! "literal", .CPP, none, none, none, none⟩),
  (chars! "SCPP_INCLUDE", ⟨chars! "include", .CPP, none, none, none, none⟩),
  (chars! "SCPP_DEFINE", ⟨chars! "define", .CPP, none, none, none, none⟩),
  (chars! "SCPP_UNDEF", ⟨chars! "undef", .CPP, none, none, none, none⟩),
  (chars! "SCPP_LINE", ⟨chars! "line", .CPP, none, none, none, none⟩),
  (chars! "SCPP_IF", ⟨chars! "if", .CPP, none, none, none, none⟩),
  (chars! "SCPP_IFDEF", ⟨chars! "ifdef", .CPP, none, none, none, none⟩),
  (chars! "SCPP_IFNDEF", ⟨chars! "ifndef", .CPP, none, none, none, none⟩),
  (chars! "SCPP_ELSE", ⟨chars! "else", .CPP, none, none, none, none⟩),
  (chars! "SCPP_ELIF", ⟨chars! "elif", .CPP, none, none, none, none⟩),
  (chars! "SCPP_ENDIF", ⟨chars! "endif", .CPP, none, none, none, none⟩),
  (chars! "SCPP_THEN", ⟨chars! "then", .CPP, none, none, none, none⟩),
  (chars! "SCPP_PRAGMA", ⟨chars! "pragma", .CPP, none, none, none, none⟩),
  (chars! "SCPP_ERROR", ⟨chars! "error", .CPP, none, none, none, none⟩),
  (chars! "SCPP_WARNING", ⟨chars! "warning", .CPP, none, none, none, none⟩),
  (chars! "SCPP_MACRO_DEFN", ⟨chars! "macro", .CPP, none, none, none, none⟩),
  (chars! "SCPP_MACRO_VALUE", ⟨chars! "value", .CPP, none, none, none, none⟩),
  (chars! "SCPP_EMPTY", ⟨chars! "empty", .CPP, none, none, none, none⟩),
  (chars! "SMARKER", ⟨chars! "marker", .SRC, (some (chars! "item")), none, none, none⟩),
  (chars! "SCPP_REGION", ⟨chars! "region", .CPP, none, none, none, none⟩),
  (chars! "SCPP_ENDREGION", ⟨chars! "endregion", .CPP, none, none, none, none⟩),
  (chars! "SCPP_IMPORT", ⟨chars! "import", .CPP, none, none, none, none⟩),
  (chars! "SMARKER", ⟨chars! "marker", .SRC, none, none, none, none⟩),
  (chars! "SERROR_PARSE", ⟨chars! "parse", .SRC, none, none, none, none⟩),
  (chars! "SERROR_MODE", ⟨chars! "mode", .SRC, none, none, none, none⟩),
  (chars! "SLOCK_STATEMENT", ⟨chars! "lock", .SRC, none, none, none, none⟩),
  (chars! "SFIXED_STATEMENT", ⟨chars! "fixed", .SRC, none, none, none, none⟩),
  (chars! "SCHECKED_STATEMENT", ⟨chars! "checked", .SRC, none, none, none, none⟩),
  (chars! "SUNCHECKED_STATEMENT", ⟨chars! "unchecked", .SRC, none, none, none, none⟩),
  (chars! "SUNSAFE_STATEMENT", ⟨chars! "unsafe", .SRC, none, none, none, none⟩),
  (chars! "SUSING_STATEMENT", ⟨chars! "using_stmt", .SRC, none, none, none, none⟩),
  (chars! "SFUNCTION_DELEGATE", ⟨chars! "delegate", .SRC, none, none, none, none⟩),
  (chars! "SEVENT", ⟨chars! "event", .SRC, none, none, none, none⟩),
  (chars! "SCONSTRAINT", ⟨chars! "constraint", .SRC, none, none, none, none⟩),
  (chars! "SEXTENDS", ⟨chars! "extends", .SRC, none, none, none, none⟩),
  (chars! "SIMPLEMENTS", ⟨chars! "implements", .SRC, none, none, none, none⟩),
  (chars! "SIMPORT", ⟨chars! "import", .SRC, none, none, none, none⟩),
  (chars! "SPACKAGE", ⟨chars! "package", .SRC, none, none, none, none⟩),
  (chars! "SASSERT_STATEMENT", ⟨chars! "assert", .SRC, none, none, none, none⟩),
  (chars! "SSYNCHRONIZED_STATEMENT", ⟨chars! "synchronized", .SRC, none, none, none, none⟩),
  (chars! "SINTERFACE", ⟨chars! "interface", .SRC, none, none, none, none⟩),
  (chars! "SINTERFACE_DECLARATION", ⟨chars! "interface_decl", .SRC, none, none, none, none⟩),
  (chars! "SANNOTATION_DEFN", ⟨chars! "annotation_defn", .SRC, none, none, none, none⟩),
  (chars! "SSTATIC_BLOCK", ⟨chars! "static", .SRC, none, none, none, none⟩),
  (chars! "SATTRIBUTE", ⟨chars! "attribute", .SRC, none, none, none, none⟩),
  (chars! "STARGET", ⟨chars! "target", .SRC, none, none, none, none⟩),
  (chars! "SLINQ", ⟨chars! "linq", .SRC, none, none, none, none⟩),
  (chars! "SFROM", ⟨chars! "from", .SRC, none, none, none, none⟩),
  (chars! "SSELECT", ⟨chars! "select", .SRC, none, none, none, none⟩),
  (chars! "SWHERE", ⟨chars! "where", .SRC, none, none, none, none⟩),
  (chars! "SLET", ⟨chars! "let", .SRC, none, none, none, none⟩),
  (chars! "SORDERBY", ⟨chars! "orderby", .SRC, none, none, none, none⟩),
  (chars! "SGROUP", ⟨chars! "group", .SRC, none, none, none, none⟩),
  (chars! "SJOIN", ⟨chars! "join", .SRC, none, none, none, none⟩),
  (chars! "SIN", ⟨chars! "in", .SRC, none, none, none, none⟩),
  (chars! "SON", ⟨chars! "on", .SRC, none, none, none, none⟩),
  (chars! "SEQUALS", ⟨chars! "equals", .SRC, none, none, none, none⟩),
  (chars! "SBY", ⟨chars! "by", .SRC, none, none, none, none⟩),
  (chars! "SINTO", ⟨chars! "into", .SRC, none, none, none, none⟩),
  (chars! "CONTROL_CHAR", ⟨chars! "escape", .SRC, (some (chars! "char")), none, none, none⟩),
  (chars! "SANNOTATION", ⟨chars! "annotation", .SRC, none, none, none, none⟩),
  (chars! "SALIGNAS", ⟨chars! "alignas", .SRC, none, none, none, none⟩),
  (chars! "SALIGNOF", ⟨chars! "alignof", .SRC, none, none, none, none⟩),
  (chars! "STYPEID", ⟨chars! "typeid", .SRC, none, none, none, none⟩),
  (chars! "SSIZEOF_PACK", ⟨chars! "sizeof", .SRC, (some (chars! "type")), (some (chars! "pack")), none, none⟩),
  (chars! "SENUM_CLASS", ⟨chars! "enum", .SRC, (some (chars! "type")), (some (chars! "class")), none, none⟩),
  (chars! "SENUM_CLASS_DECLARATION", ⟨chars! "enum_decl", .SRC, (some (chars! "type")), (some (chars! "class")), none, none⟩),
  (chars! "SOPERATOR_FUNCTION", ⟨chars! "function", .SRC, (some (chars! "type")), (some (chars! "operator")), none, none⟩),
  (chars! "SOPERATOR_FUNCTION_DECL", ⟨chars! "function_decl", .SRC, (some (chars! "type")), (some (chars! "operator")), none, none⟩),
  (chars! "SREF_QUALIFIER", ⟨chars! "ref_qualifier", .SRC, none, none, none, none⟩),
  (chars! "SRECEIVER", ⟨chars! "receiver", .SRC, none, none, none, none⟩),
  (chars! "SMESSAGE", ⟨chars! "message", .SRC, none, none, none, none⟩),
  (chars! "SSELECTOR", ⟨chars! "selector", .SRC, none, none, none, none⟩),
  (chars! "SPROTOCOL_LIST", ⟨chars! "protocol_list", .SRC, none, none, none, none⟩),
  (chars! "SCATEGORY", ⟨chars! "category", .SRC, none, none, none, none⟩),
  (chars! "SPROTOCOL", ⟨chars! "protocol", .SRC, none, none, none, none⟩),
  (chars! "SREQUIRED_DEFAULT", ⟨chars! "required", .SRC, (some (chars! "type")), (some (chars! "default")), none, none⟩),
  (chars! "SREQUIRED", ⟨chars! "required", .SRC, none, none, none, none⟩),
  (chars! "SOPTIONAL", ⟨chars! "optional", .SRC, none, none, none, none⟩),
  (chars! "SPROPERTY", ⟨chars! "property", .SRC, none, none, none, none⟩),
  (chars! "SATTRIBUTE_LIST", ⟨chars! "attribute_list", .SRC, none, none, none, none⟩),
  (chars! "SSYNTHESIZE", ⟨chars! "synthesize", .SRC, none, none, none, none⟩),
  (chars! "SDYNAMIC", ⟨chars! "dynamic", .SRC, none, none, none, none⟩),
  (chars! "SENCODE", ⟨chars! "encode", .SRC, none, none, none, none⟩),
  (chars! "SAUTORELEASEPOOL", ⟨chars! "autoreleasepool", .SRC, none, none, none, none⟩),
  (chars! "SCOMPATIBILITY_ALIAS", ⟨chars! "compatibility_alias", .SRC, none, none, none, none⟩),
  (chars! "SNIL", ⟨chars! "literal", .SRC, (some (chars! "type")), (some (chars! "nil")), none, none⟩),
  (chars! "SPROTOCOL_DECLARATION", ⟨chars! "protocol_decl", .SRC, none, none, none, none⟩),
  (chars! "SCLASS_INTERFACE", ⟨chars! "class", .SRC, (some (chars! "type")), (some (chars! "@interface")), none, none⟩),
  (chars! "SCLASS_IMPLEMENTATION", ⟨chars! "class", .SRC, (some (chars! "type")), (some (chars! "@implementation")), none, none⟩),
  (chars! "SCAST", ⟨chars! "cast", .SRC, none, none, none, none⟩),
  (chars! "SCONST_CAST", ⟨chars! "cast", .SRC, (some (chars! "type")), (some (chars! "const")), none, none⟩),
  (chars! "SDYNAMIC_CAST", ⟨chars! "cast", .SRC, (some (chars! "type")), (some (chars! "dynamic")), none, none⟩),
  (chars! "SREINTERPRET_CAST", ⟨chars! "cast", .SRC, (some (chars! "type")), (some (chars! "reinterpret")), none, none⟩),
  (chars! "SSTATIC_CAST", ⟨chars! "cast", .SRC, (some (chars! "type")), (some (chars! "static")), none, none⟩),
  (chars! "SPOSITION", ⟨chars! "position", .SRC, none, none, none, none⟩),
  (chars! "SCUDA_ARGUMENT_LIST", ⟨chars! "argument_list", .SRC, (some (chars! "type")), (some (chars! "cuda")), none, none⟩),
  (chars! "SOMP_DIRECTIVE", ⟨chars! "directive", .OMP, none, none, none, none⟩),
  (chars! "SOMP_NAME", ⟨chars! "name", .OMP, none, none, none, none⟩),
  (chars! "SOMP_CLAUSE", ⟨chars! "clause", .OMP, none, none, none, none⟩),
  (chars! "SOMP_ARGUMENT_LIST", ⟨chars! "argument_list", .OMP, none, none, none, none⟩),
  (chars! "SOMP_ARGUMENT", ⟨chars! "argument", .OMP, none, none, none, none⟩),
  (chars! "SOMP_EXPRESSION", ⟨chars! "expr", .OMP, none, none, none, none⟩),
  (chars! "SEMPTY", ⟨chars! "empty_stmt", .SRC, none, none, none, none⟩)]

/-- `process.find(type)`, src/parser/srcMLOutput.cpp:580. -/
def processFind (t : TokType) : Option Element := (processTable.find? (fun e => e.1 = t)).map (·.2)

end Srcml
