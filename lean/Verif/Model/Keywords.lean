import Verif.Model.Elements
import Verif.Model.Language
/-
The table of keywords of the lexer. Generated from /repo/src/parser/KeywordLexer.g by tools/keywords.py; one row per line of
the C++ table, in its order.
-/
namespace Srcml

/-- `LANGUAGE_CXX_FAMILY`, src/parser/Language.hpp:102-103. -/
def LANGUAGE_CXX_FAMILY : Nat := LANGUAGE_CXX ||| LANGUAGE_CSHARP

/-- `LANGUAGE_C_FAMILY`, src/parser/Language.hpp:105-106. -/
def LANGUAGE_C_FAMILY : Nat := LANGUAGE_C ||| LANGUAGE_CXX_FAMILY ||| LANGUAGE_OBJECTIVE_C

/-- `LANGUAGE_OO`, src/parser/Language.hpp:111-112. -/
def LANGUAGE_OO : Nat := LANGUAGE_CXX_FAMILY ||| LANGUAGE_JAVA

/-- `LANGUAGE_ALL`, src/parser/Language.hpp:114-115: all bits of an `int`; here those of the languages there are. -/
def LANGUAGE_ALL : Nat := 31

/-- `keyword`, src/parser/KeywordLexer.g:318. -/
structure Keyword where
  text : Str
  token : TokType
  language : Nat

/-- `keyword_map`, src/parser/KeywordLexer.g:346-675. -/
def keywordMap : List Keyword := [
  ⟨chars! "if", chars! "IF", LANGUAGE_ALL⟩,
  ⟨chars! "else", chars! "ELSE", LANGUAGE_ALL⟩,
  ⟨chars! "while", chars! "WHILE", LANGUAGE_ALL⟩,
  ⟨chars! "for", chars! "FOR", LANGUAGE_ALL⟩,
  ⟨chars! "do", chars! "DO", LANGUAGE_ALL⟩,
  ⟨chars! "break", chars! "BREAK", LANGUAGE_ALL⟩,
  ⟨chars! "continue", chars! "CONTINUE", LANGUAGE_ALL⟩,
  ⟨chars! "switch", chars! "SWITCH", LANGUAGE_ALL⟩,
  ⟨chars! "case", chars! "CASE", LANGUAGE_ALL⟩,
  ⟨chars! "default", chars! "DEFAULT", LANGUAGE_ALL⟩,
  ⟨chars! "return", chars! "RETURN", LANGUAGE_ALL⟩,
  ⟨chars! "enum", chars! "ENUM", LANGUAGE_ALL⟩,
  ⟨chars! "static", chars! "STATIC", LANGUAGE_ALL⟩,
  ⟨chars! "const", chars! "CONST", LANGUAGE_ALL⟩,
  ⟨chars! ")", chars! "RPAREN", LANGUAGE_ALL⟩,
  ⟨chars! ";", chars! "TERMINATE", LANGUAGE_ALL⟩,
  ⟨chars! "(", chars! "LPAREN", LANGUAGE_ALL⟩,
  ⟨chars! "~", chars! "DESTOP", LANGUAGE_ALL⟩,
  ⟨chars! ":", chars! "COLON", LANGUAGE_ALL⟩,
  ⟨chars! "}", chars! "RCURLY", LANGUAGE_ALL⟩,
  ⟨chars! ",", chars! "COMMA", LANGUAGE_ALL⟩,
  ⟨chars! "]", chars! "RBRACKET", LANGUAGE_ALL⟩,
  ⟨chars! "{", chars! "LCURLY", LANGUAGE_ALL⟩,
  ⟨chars! "[", chars! "LBRACKET", LANGUAGE_ALL⟩,
  ⟨chars! "<", chars! "TEMPOPS", LANGUAGE_ALL⟩,
  ⟨chars! ">", chars! "TEMPOPE", LANGUAGE_ALL⟩,
  ⟨chars! "&", chars! "REFOPS", LANGUAGE_ALL⟩,
  ⟨chars! "=", chars! "EQUAL", LANGUAGE_ALL⟩,
  ⟨chars! ".", chars! "PERIOD", LANGUAGE_ALL⟩,
  ⟨chars! "*", chars! "MULTOPS", LANGUAGE_ALL⟩,
  ⟨chars! "*=", chars! "ASSIGNMENT", LANGUAGE_ALL⟩,
  ⟨chars! "%=", chars! "ASSIGNMENT", LANGUAGE_ALL⟩,
  ⟨chars! "/=", chars! "ASSIGNMENT", LANGUAGE_ALL⟩,
  ⟨chars! "/", chars! "OPERATORS", LANGUAGE_ALL⟩,
  ⟨chars! "^", chars! "BLOCKOP", LANGUAGE_ALL⟩,
  ⟨chars! "^=", chars! "ASSIGNMENT", LANGUAGE_ALL⟩,
  ⟨chars! "|=", chars! "ASSIGNMENT", LANGUAGE_ALL⟩,
  ⟨chars! "||=", chars! "ASSIGNMENT", LANGUAGE_ALL⟩,
  ⟨chars! "+=", chars! "ASSIGNMENT", LANGUAGE_ALL⟩,
  ⟨chars! "-=", chars! "ASSIGNMENT", LANGUAGE_ALL⟩,
  ⟨chars! "->", chars! "TRETURN", LANGUAGE_ALL⟩,
  ⟨chars! "->*", chars! "MPDEREF", LANGUAGE_ALL⟩,
  ⟨chars! "?", chars! "QMARK", LANGUAGE_ALL⟩,
  ⟨chars! "..", chars! "DOTDOT", LANGUAGE_ALL⟩,
  ⟨chars! "...", chars! "DOTDOTDOT", LANGUAGE_ALL⟩,
  ⟨chars! "&=", chars! "ASSIGNMENT", LANGUAGE_ALL⟩,
  ⟨chars! "&&=", chars! "ASSIGNMENT", LANGUAGE_ALL⟩,
  ⟨chars! ">>=", chars! "ASSIGNMENT", LANGUAGE_ALL⟩,
  ⟨chars! "<<=", chars! "ASSIGNMENT", LANGUAGE_ALL⟩,
  ⟨chars! ".*", chars! "DOTDEREF", LANGUAGE_C_FAMILY⟩,
  ⟨chars! "-", chars! "MSPEC", LANGUAGE_JAVA⟩,
  ⟨chars! "+", chars! "CSPEC", LANGUAGE_JAVA⟩,
  ⟨chars! "<<<", chars! "CUDA", LANGUAGE_C ||| LANGUAGE_CXX⟩,
  ⟨chars! "=>", chars! "LAMBDA", LANGUAGE_CSHARP⟩,
  ⟨chars! "@", chars! "ATSIGN", LANGUAGE_ALL⟩,
  ⟨chars! "u\"", chars! "STRING_START", LANGUAGE_ALL⟩,
  ⟨chars! "u8\"", chars! "STRING_START", LANGUAGE_ALL⟩,
  ⟨chars! "U\"", chars! "STRING_START", LANGUAGE_ALL⟩,
  ⟨chars! "L\"", chars! "STRING_START", LANGUAGE_ALL⟩,
  ⟨chars! "R\"", chars! "STRING_START", LANGUAGE_CXX⟩,
  ⟨chars! "LR\"", chars! "STRING_START", LANGUAGE_CXX⟩,
  ⟨chars! "uR\"", chars! "STRING_START", LANGUAGE_CXX⟩,
  ⟨chars! "UR\"", chars! "STRING_START", LANGUAGE_CXX⟩,
  ⟨chars! "u8R\"", chars! "STRING_START", LANGUAGE_CXX⟩,
  ⟨chars! "main", chars! "MAIN", LANGUAGE_C_FAMILY⟩,
  ⟨chars! "typedef", chars! "TYPEDEF", LANGUAGE_C_FAMILY⟩,
  ⟨chars! "include", chars! "INCLUDE", LANGUAGE_C_FAMILY ||| LANGUAGE_JAVA⟩,
  ⟨chars! "define", chars! "DEFINE", LANGUAGE_C_FAMILY ||| LANGUAGE_JAVA⟩,
  ⟨chars! "elif", chars! "ELIF", LANGUAGE_C_FAMILY ||| LANGUAGE_JAVA⟩,
  ⟨chars! "endif", chars! "ENDIF", LANGUAGE_C_FAMILY ||| LANGUAGE_JAVA⟩,
  ⟨chars! "error", chars! "ERRORPREC", LANGUAGE_C_FAMILY ||| LANGUAGE_JAVA⟩,
  ⟨chars! "warning", chars! "WARNING", LANGUAGE_C_FAMILY ||| LANGUAGE_JAVA⟩,
  ⟨chars! "ifdef", chars! "IFDEF", LANGUAGE_C_FAMILY ||| LANGUAGE_JAVA⟩,
  ⟨chars! "ifndef", chars! "IFNDEF", LANGUAGE_C_FAMILY ||| LANGUAGE_JAVA⟩,
  ⟨chars! "line", chars! "LINE", LANGUAGE_C_FAMILY ||| LANGUAGE_JAVA⟩,
  ⟨chars! "pragma", chars! "PRAGMA", LANGUAGE_C_FAMILY ||| LANGUAGE_JAVA⟩,
  ⟨chars! "undef", chars! "UNDEF", LANGUAGE_C_FAMILY ||| LANGUAGE_JAVA⟩,
  ⟨chars! "union", chars! "UNION", LANGUAGE_C ||| LANGUAGE_CXX⟩,
  ⟨chars! "struct", chars! "STRUCT", LANGUAGE_C_FAMILY⟩,
  ⟨chars! "void", chars! "VOID", LANGUAGE_ALL⟩,
  ⟨chars! "inline", chars! "INLINE", LANGUAGE_C_FAMILY⟩,
  ⟨chars! "extern", chars! "EXTERN", LANGUAGE_C_FAMILY⟩,
  ⟨chars! "asm", chars! "ASM", LANGUAGE_C_FAMILY⟩,
  ⟨chars! "__asm__", chars! "ASM", LANGUAGE_C_FAMILY⟩,
  ⟨chars! "__asm", chars! "VISUAL_CXX_ASM", LANGUAGE_C_FAMILY⟩,
  ⟨chars! "goto", chars! "GOTO", LANGUAGE_ALL⟩,
  ⟨chars! "sizeof", chars! "SIZEOF", LANGUAGE_C_FAMILY⟩,
  ⟨chars! "register", chars! "REGISTER", LANGUAGE_C ||| LANGUAGE_CXX⟩,
  ⟨chars! "mutable", chars! "MUTABLE", LANGUAGE_CXX⟩,
  ⟨chars! "volatile", chars! "VOLATILE", LANGUAGE_ALL⟩,
  ⟨chars! "__volatile__", chars! "VOLATILE", LANGUAGE_C_FAMILY⟩,
  ⟨chars! "auto", chars! "AUTO", LANGUAGE_CXX ||| LANGUAGE_C⟩,
  ⟨chars! "restrict", chars! "RESTRICT", LANGUAGE_C⟩,
  ⟨chars! "_Alignas", chars! "ALIGNAS", LANGUAGE_C⟩,
  ⟨chars! "_Alignof", chars! "ALIGNOF", LANGUAGE_C⟩,
  ⟨chars! "_Atomic", chars! "ATOMIC", LANGUAGE_C⟩,
  ⟨chars! "_Complex", chars! "COMPLEX", LANGUAGE_C⟩,
  ⟨chars! "_Generic", chars! "GENERIC_SELECTION", LANGUAGE_C⟩,
  ⟨chars! "_Imaginary", chars! "IMAGINARY", LANGUAGE_C⟩,
  ⟨chars! "_Noreturn", chars! "NORETURN", LANGUAGE_C⟩,
  ⟨chars! "_Static_assert", chars! "STATIC_ASSERT", LANGUAGE_C⟩,
  ⟨chars! "_Thread_local", chars! "THREAD_LOCAL", LANGUAGE_C⟩,
  ⟨chars! "try", chars! "TRY", LANGUAGE_OO⟩,
  ⟨chars! "catch", chars! "CATCH", LANGUAGE_OO⟩,
  ⟨chars! "throw", chars! "THROW", LANGUAGE_OO⟩,
  ⟨chars! "class", chars! "CLASS", LANGUAGE_OO⟩,
  ⟨chars! "public", chars! "PUBLIC", LANGUAGE_OO⟩,
  ⟨chars! "private", chars! "PRIVATE", LANGUAGE_OO⟩,
  ⟨chars! "protected", chars! "PROTECTED", LANGUAGE_OO⟩,
  ⟨chars! "new", chars! "NEW", LANGUAGE_OO⟩,
  ⟨chars! "signals", chars! "SIGNAL", LANGUAGE_CXX⟩,
  ⟨chars! "foreach", chars! "FOREACH", LANGUAGE_CXX⟩,
  ⟨chars! "forever", chars! "FOREVER", LANGUAGE_CXX⟩,
  ⟨chars! "emit", chars! "EMIT", LANGUAGE_CXX⟩,
  ⟨chars! "virtual", chars! "VIRTUAL", LANGUAGE_CXX_FAMILY⟩,
  ⟨chars! "friend", chars! "FRIEND", LANGUAGE_CXX⟩,
  ⟨chars! "operator", chars! "OPERATOR", LANGUAGE_CXX_FAMILY⟩,
  ⟨chars! "explicit", chars! "EXPLICIT", LANGUAGE_CXX_FAMILY⟩,
  ⟨chars! "namespace", chars! "NAMESPACE", LANGUAGE_CXX_FAMILY⟩,
  ⟨chars! "using", chars! "USING", LANGUAGE_CXX_FAMILY⟩,
  ⟨chars! "template", chars! "TEMPLATE", LANGUAGE_CXX⟩,
  ⟨chars! "delete", chars! "DELETE", LANGUAGE_CXX⟩,
  ⟨chars! "::", chars! "DCOLON", LANGUAGE_CXX_FAMILY⟩,
  ⟨chars! "&&", chars! "RVALUEREF", LANGUAGE_CXX_FAMILY⟩,
  ⟨chars! "false", chars! "LITERAL_FALSE", LANGUAGE_OO⟩,
  ⟨chars! "true", chars! "LITERAL_TRUE", LANGUAGE_OO⟩,
  ⟨chars! "final", chars! "FINAL", LANGUAGE_CXX⟩,
  ⟨chars! "override", chars! "OVERRIDE", LANGUAGE_CXX⟩,
  ⟨chars! "constexpr", chars! "CONSTEXPR", LANGUAGE_CXX⟩,
  ⟨chars! "noexcept", chars! "NOEXCEPT", LANGUAGE_CXX⟩,
  ⟨chars! "thread_local", chars! "THREAD_LOCAL", LANGUAGE_CXX⟩,
  ⟨chars! "nullptr", chars! "NULLPTR", LANGUAGE_CXX⟩,
  ⟨chars! "decltype", chars! "DECLTYPE", LANGUAGE_CXX⟩,
  ⟨chars! "alignas", chars! "ALIGNAS", LANGUAGE_CXX⟩,
  ⟨chars! "typename", chars! "TYPENAME", LANGUAGE_CXX⟩,
  ⟨chars! "alignof", chars! "ALIGNOF", LANGUAGE_CXX⟩,
  ⟨chars! "typeid", chars! "TYPEID", LANGUAGE_CXX⟩,
  ⟨chars! "const_cast", chars! "CONST_CAST", LANGUAGE_CXX⟩,
  ⟨chars! "dynamic_cast", chars! "DYNAMIC_CAST", LANGUAGE_CXX⟩,
  ⟨chars! "reinterpret_cast", chars! "REINTERPRET_CAST", LANGUAGE_CXX⟩,
  ⟨chars! "static_cast", chars! "STATIC_CAST", LANGUAGE_CXX⟩,
  ⟨chars! "static_assert", chars! "STATIC_ASSERT", LANGUAGE_CXX⟩,
  ⟨chars! "and", chars! "OPERATORS", LANGUAGE_CXX⟩,
  ⟨chars! "and_eq", chars! "OPERATORS", LANGUAGE_CXX⟩,
  ⟨chars! "bitand", chars! "OPERATORS", LANGUAGE_CXX⟩,
  ⟨chars! "bitor", chars! "OPERATORS", LANGUAGE_CXX⟩,
  ⟨chars! "compl", chars! "OPERATORS", LANGUAGE_CXX⟩,
  ⟨chars! "not", chars! "OPERATORS", LANGUAGE_CXX⟩,
  ⟨chars! "not_eq", chars! "OPERATORS", LANGUAGE_CXX⟩,
  ⟨chars! "or", chars! "OPERATORS", LANGUAGE_CXX⟩,
  ⟨chars! "or_eq", chars! "OPERATORS", LANGUAGE_CXX⟩,
  ⟨chars! "xor", chars! "OPERATORS", LANGUAGE_CXX⟩,
  ⟨chars! "xor_eq", chars! "OPERATORS", LANGUAGE_CXX⟩,
  ⟨chars! "throws", chars! "THROWS", LANGUAGE_JAVA⟩,
  ⟨chars! "finally", chars! "FINALLY", LANGUAGE_JAVA⟩,
  ⟨chars! "interface", chars! "INTERFACE", LANGUAGE_JAVA⟩,
  ⟨chars! "extends", chars! "EXTENDS", LANGUAGE_JAVA⟩,
  ⟨chars! "implements", chars! "IMPLEMENTS", LANGUAGE_JAVA⟩,
  ⟨chars! "super", chars! "SUPER", LANGUAGE_JAVA⟩,
  ⟨chars! "import", chars! "IMPORT", LANGUAGE_JAVA⟩,
  ⟨chars! "package", chars! "PACKAGE", LANGUAGE_JAVA⟩,
  ⟨chars! "final", chars! "FINAL", LANGUAGE_JAVA⟩,
  ⟨chars! "abstract", chars! "ABSTRACT", LANGUAGE_JAVA⟩,
  ⟨chars! "synchronized", chars! "SYNCHRONIZED", LANGUAGE_JAVA⟩,
  ⟨chars! "native", chars! "NATIVE", LANGUAGE_JAVA⟩,
  ⟨chars! "strictfp", chars! "STRICTFP", LANGUAGE_JAVA⟩,
  ⟨chars! "transient", chars! "TRANSIENT", LANGUAGE_JAVA⟩,
  ⟨chars! "|", chars! "BAR", LANGUAGE_JAVA⟩,
  ⟨chars! "@", chars! "ATSIGN", LANGUAGE_JAVA⟩,
  ⟨chars! "null", chars! "NULLLITERAL", LANGUAGE_JAVA⟩,
  ⟨chars! "instanceof", chars! "OPERATORS", LANGUAGE_JAVA⟩,
  ⟨chars! "assert", chars! "ASSERT", LANGUAGE_JAVA⟩,
  ⟨chars! "foreach", chars! "FOREACH", LANGUAGE_CSHARP⟩,
  ⟨chars! "ref", chars! "REF", LANGUAGE_CSHARP⟩,
  ⟨chars! "out", chars! "OUT", LANGUAGE_CSHARP⟩,
  ⟨chars! "in", chars! "IN", LANGUAGE_CSHARP⟩,
  ⟨chars! "lock", chars! "LOCK", LANGUAGE_CSHARP⟩,
  ⟨chars! "is", chars! "IS", LANGUAGE_CSHARP⟩,
  ⟨chars! "internal", chars! "INTERNAL", LANGUAGE_CSHARP⟩,
  ⟨chars! "sealed", chars! "SEALED", LANGUAGE_CSHARP⟩,
  ⟨chars! "override", chars! "OVERRIDE", LANGUAGE_CSHARP⟩,
  ⟨chars! "explicit", chars! "EXPLICIT", LANGUAGE_CSHARP⟩,
  ⟨chars! "implicit", chars! "IMPLICIT", LANGUAGE_CSHARP⟩,
  ⟨chars! "stackalloc", chars! "STACKALLOC", LANGUAGE_CSHARP⟩,
  ⟨chars! "as", chars! "AS", LANGUAGE_CSHARP⟩,
  ⟨chars! "interface", chars! "INTERFACE", LANGUAGE_CSHARP⟩,
  ⟨chars! "delegate", chars! "DELEGATE", LANGUAGE_CSHARP⟩,
  ⟨chars! "fixed", chars! "FIXED", LANGUAGE_CSHARP⟩,
  ⟨chars! "checked", chars! "CHECKED", LANGUAGE_CSHARP⟩,
  ⟨chars! "unchecked", chars! "UNCHECKED", LANGUAGE_CSHARP⟩,
  ⟨chars! "finally", chars! "FINALLY", LANGUAGE_CSHARP⟩,
  ⟨chars! "region", chars! "REGION", LANGUAGE_CSHARP⟩,
  ⟨chars! "endregion", chars! "ENDREGION", LANGUAGE_CSHARP⟩,
  ⟨chars! "unsafe", chars! "UNSAFE", LANGUAGE_CSHARP⟩,
  ⟨chars! "readonly", chars! "READONLY", LANGUAGE_CSHARP⟩,
  ⟨chars! "partial", chars! "PARTIAL", LANGUAGE_CSHARP⟩,
  ⟨chars! "get", chars! "GET", LANGUAGE_CSHARP⟩,
  ⟨chars! "set", chars! "SET", LANGUAGE_CSHARP⟩,
  ⟨chars! "add", chars! "ADD", LANGUAGE_CSHARP⟩,
  ⟨chars! "remove", chars! "REMOVE", LANGUAGE_CSHARP⟩,
  ⟨chars! "await", chars! "AWAIT", LANGUAGE_CSHARP⟩,
  ⟨chars! "abstract", chars! "ABSTRACT", LANGUAGE_CSHARP⟩,
  ⟨chars! "event", chars! "EVENT", LANGUAGE_CSHARP⟩,
  ⟨chars! "async", chars! "ASYNC", LANGUAGE_CSHARP⟩,
  ⟨chars! "this", chars! "THIS", LANGUAGE_CSHARP⟩,
  ⟨chars! "yield", chars! "YIELD", LANGUAGE_CSHARP⟩,
  ⟨chars! "params", chars! "PARAMS", LANGUAGE_CSHARP⟩,
  ⟨chars! "null", chars! "NULLLITERAL", LANGUAGE_CSHARP⟩,
  ⟨chars! "typeof", chars! "TYPEOF", LANGUAGE_CSHARP⟩,
  ⟨chars! "alias", chars! "ALIAS", LANGUAGE_CSHARP⟩,
  ⟨chars! "from", chars! "FROM", LANGUAGE_CSHARP⟩,
  ⟨chars! "where", chars! "WHERE", LANGUAGE_CSHARP⟩,
  ⟨chars! "select", chars! "SELECT", LANGUAGE_CSHARP⟩,
  ⟨chars! "let", chars! "LET", LANGUAGE_CSHARP⟩,
  ⟨chars! "orderby", chars! "ORDERBY", LANGUAGE_CSHARP⟩,
  ⟨chars! "ascending", chars! "ASCENDING", LANGUAGE_CSHARP⟩,
  ⟨chars! "descending", chars! "DESCENDING", LANGUAGE_CSHARP⟩,
  ⟨chars! "group", chars! "GROUP", LANGUAGE_CSHARP⟩,
  ⟨chars! "by", chars! "BY", LANGUAGE_CSHARP⟩,
  ⟨chars! "join", chars! "JOIN", LANGUAGE_CSHARP⟩,
  ⟨chars! "on", chars! "ON", LANGUAGE_CSHARP⟩,
  ⟨chars! "equals", chars! "EQUALS", LANGUAGE_CSHARP⟩,
  ⟨chars! "into", chars! "INTO", LANGUAGE_CSHARP⟩,
  ⟨chars! "@interface", chars! "ATINTERFACE", LANGUAGE_OBJECTIVE_C⟩,
  ⟨chars! "@implementation", chars! "ATIMPLEMENTATION", LANGUAGE_OBJECTIVE_C⟩,
  ⟨chars! "@protocol", chars! "ATPROTOCOL", LANGUAGE_OBJECTIVE_C⟩,
  ⟨chars! "@end", chars! "ATEND", LANGUAGE_OBJECTIVE_C⟩,
  ⟨chars! "@private", chars! "PRIVATE", LANGUAGE_OBJECTIVE_C⟩,
  ⟨chars! "@protected", chars! "PROTECTED", LANGUAGE_OBJECTIVE_C⟩,
  ⟨chars! "@public", chars! "PUBLIC", LANGUAGE_OBJECTIVE_C⟩,
  ⟨chars! "@required", chars! "ATREQUIRED", LANGUAGE_OBJECTIVE_C⟩,
  ⟨chars! "@optional", chars! "ATOPTIONAL", LANGUAGE_OBJECTIVE_C⟩,
  ⟨chars! "import", chars! "IMPORT", LANGUAGE_OBJECTIVE_C⟩,
  ⟨chars! "@try", chars! "TRY", LANGUAGE_OBJECTIVE_C⟩,
  ⟨chars! "@catch", chars! "CATCH", LANGUAGE_OBJECTIVE_C⟩,
  ⟨chars! "@finally", chars! "FINALLY", LANGUAGE_OBJECTIVE_C⟩,
  ⟨chars! "@throw", chars! "THROW", LANGUAGE_OBJECTIVE_C⟩,
  ⟨chars! "@synchronized", chars! "SYNCHRONIZED", LANGUAGE_OBJECTIVE_C⟩,
  ⟨chars! "@property", chars! "PROPERTY", LANGUAGE_OBJECTIVE_C⟩,
  ⟨chars! "@synthesize", chars! "SYNTHESIZE", LANGUAGE_OBJECTIVE_C⟩,
  ⟨chars! "@dynamic", chars! "DYNAMIC", LANGUAGE_OBJECTIVE_C⟩,
  ⟨chars! "in", chars! "IN", LANGUAGE_OBJECTIVE_C⟩,
  ⟨chars! "@YES", chars! "LITERAL_TRUE", LANGUAGE_OBJECTIVE_C⟩,
  ⟨chars! "@NO", chars! "LITERAL_FALSE", LANGUAGE_OBJECTIVE_C⟩,
  ⟨chars! "YES", chars! "LITERAL_TRUE", LANGUAGE_OBJECTIVE_C⟩,
  ⟨chars! "NO", chars! "LITERAL_FALSE", LANGUAGE_OBJECTIVE_C⟩,
  ⟨chars! "@true", chars! "LITERAL_TRUE", LANGUAGE_OBJECTIVE_C⟩,
  ⟨chars! "@false", chars! "LITERAL_FALSE", LANGUAGE_OBJECTIVE_C⟩,
  ⟨chars! "@encode", chars! "ENCODE", LANGUAGE_OBJECTIVE_C⟩,
  ⟨chars! "@selector", chars! "SELECTOR", LANGUAGE_OBJECTIVE_C⟩,
  ⟨chars! "@autoreleasepool", chars! "AUTORELEASEPOOL", LANGUAGE_OBJECTIVE_C⟩,
  ⟨chars! "@compatibility_alias", chars! "COMPATIBILITY_ALIAS", LANGUAGE_OBJECTIVE_C⟩,
  ⟨chars! "@class", chars! "ATCLASS", LANGUAGE_OBJECTIVE_C⟩,
  ⟨chars! "nil", chars! "NIL", LANGUAGE_OBJECTIVE_C⟩,
  ⟨chars! "@(", chars! "LPAREN", LANGUAGE_OBJECTIVE_C⟩,
  ⟨chars! "@[", chars! "ATLBRACKET", LANGUAGE_OBJECTIVE_C⟩,
  ⟨chars! "@{", chars! "LCURLY", LANGUAGE_OBJECTIVE_C⟩,
  ⟨chars! "__block", chars! "BLOCK", LANGUAGE_CXX ||| LANGUAGE_C ||| LANGUAGE_OBJECTIVE_C⟩,
  ⟨chars! "__weak", chars! "WEAK", LANGUAGE_CXX ||| LANGUAGE_C ||| LANGUAGE_OBJECTIVE_C⟩,
  ⟨chars! "__strong", chars! "STRONG", LANGUAGE_CXX ||| LANGUAGE_C ||| LANGUAGE_OBJECTIVE_C⟩,
  ⟨chars! "restrict", chars! "CRESTRICT", LANGUAGE_CXX⟩,
  ⟨chars! "try", chars! "CXX_TRY", LANGUAGE_CXX⟩,
  ⟨chars! "catch", chars! "CXX_CATCH", LANGUAGE_CXX⟩,
  ⟨chars! "class", chars! "CXX_CLASS", LANGUAGE_CXX⟩,
  ⟨chars! "omp", chars! "OMP_OMP", LANGUAGE_C_FAMILY⟩]

end Srcml
