/-
Package token: the operator and literal tokens that occur in the public AST.
-/
import Verif.Model.Node

namespace Viml

/-- `token.Token`, token/token.go:9-81.  The constants that never occur in a tree are included so
that the spelling table is complete. -/
inductive Tok
  | ILLEGAL | EOF | EOL | SPACE | OROR | ANDAND
  | EQEQ | EQEQCI | EQEQCS | NEQ | NEQCI | NEQCS | GT | GTCI | GTCS | GTEQ | GTEQCI | GTEQCS
  | LT | LTCI | LTCS | LTEQ | LTEQCI | LTEQCS | MATCH | MATCHCI | MATCHCS
  | NOMATCH | NOMATCHCI | NOMATCHCS | IS | ISCI | ISCS | ISNOT | ISNOTCI | ISNOTCS
  | PLUS | MINUS | DOT | STAR | SLASH | PERCENT | NOT | QUESTION | COLON
  | POPEN | PCLOSE | SQOPEN | SQCLOSE | COPEN | CCLOSE | COMMA | NUMBER | BLOB | SQUOTE | DQUOTE
  | OPTION | IDENTIFIER | ENV | REG | EQ | OR | SEMICOLON | BACKTICK | DOTDOTDOT | SHARP | ARROW
  | STRING
deriving DecidableEq, Repr, Inhabited

/-- `Token.String`, token/token.go:83-166 (every constant has a non-empty entry in `tokens`). -/
def Tok.str : Tok → Str
  | .ILLEGAL => cs!"ILLEGAL" | .EOF => cs!"<EOF>" | .EOL => cs!"<EOL>" | .SPACE => cs!"<SPACE>"
  | .OROR => cs!"||" | .ANDAND => cs!"&&"
  | .EQEQ => cs!"==" | .EQEQCI => cs!"==?" | .EQEQCS => cs!"==#"
  | .NEQ => cs!"!=" | .NEQCI => cs!"!=?" | .NEQCS => cs!"!=#"
  | .GT => cs!">" | .GTCI => cs!">?" | .GTCS => cs!">#"
  | .GTEQ => cs!">=" | .GTEQCI => cs!">=?" | .GTEQCS => cs!">=#"
  | .LT => cs!"<" | .LTCI => cs!"<?" | .LTCS => cs!"<#"
  | .LTEQ => cs!"<=" | .LTEQCI => cs!"<=?" | .LTEQCS => cs!"<=#"
  | .MATCH => cs!"=~" | .MATCHCI => cs!"=~?" | .MATCHCS => cs!"=~#"
  | .NOMATCH => cs!"!~" | .NOMATCHCI => cs!"!~?" | .NOMATCHCS => cs!"!~#"
  | .IS => cs!"is" | .ISCI => cs!"is?" | .ISCS => cs!"is#"
  | .ISNOT => cs!"isnot" | .ISNOTCI => cs!"isnot?" | .ISNOTCS => cs!"isnot#"
  | .PLUS => cs!"+" | .MINUS => cs!"-" | .DOT => cs!"." | .STAR => cs!"*" | .SLASH => cs!"/"
  | .PERCENT => cs!"%" | .NOT => cs!"!" | .QUESTION => cs!"?" | .COLON => cs!":"
  | .POPEN => cs!"(" | .PCLOSE => cs!")" | .SQOPEN => cs!"[" | .SQCLOSE => cs!"]"
  | .COPEN => cs!"{" | .CCLOSE => cs!"}" | .COMMA => cs!"," | .NUMBER => cs!"<NUMBER>"
  | .BLOB => cs!"<BLOB>" | .SQUOTE => cs!"'" | .DQUOTE => cs!"\"" | .OPTION => cs!"<&OPTION>"
  | .IDENTIFIER => cs!"<IDENTIFIER>" | .ENV => cs!"<$ENV>" | .REG => cs!"<@REG>" | .EQ => cs!"="
  | .OR => cs!"|" | .SEMICOLON => cs!";" | .BACKTICK => cs!"`" | .DOTDOTDOT => cs!"..."
  | .SHARP => cs!"#" | .ARROW => cs!"->" | .STRING => cs!"<STRING>"

/-- `opToken` on binary node types, go/export.go:597-674 -/
def binTok : BinTy → Tok
  | .or_ => .OROR
  | .and_ => .ANDAND
  | .cmp .equal .plain => .EQEQ
  | .cmp .equal .ci => .EQEQCI
  | .cmp .equal .cs => .EQEQCS
  | .cmp .nequal .plain => .NEQ
  | .cmp .nequal .ci => .NEQCI
  | .cmp .nequal .cs => .NEQCS
  | .cmp .greater .plain => .GT
  | .cmp .greater .ci => .GTCI
  | .cmp .greater .cs => .GTCS
  | .cmp .gequal .plain => .GTEQ
  | .cmp .gequal .ci => .GTEQCI
  | .cmp .gequal .cs => .GTEQCS
  | .cmp .smaller .plain => .LT
  | .cmp .smaller .ci => .LTCI
  | .cmp .smaller .cs => .LTCS
  | .cmp .sequal .plain => .LTEQ
  | .cmp .sequal .ci => .LTEQCI
  | .cmp .sequal .cs => .LTEQCS
  | .cmp .match_ .plain => .MATCH
  | .cmp .match_ .ci => .MATCHCI
  | .cmp .match_ .cs => .MATCHCS
  | .cmp .nomatch .plain => .NOMATCH
  | .cmp .nomatch .ci => .NOMATCHCI
  | .cmp .nomatch .cs => .NOMATCHCS
  | .cmp .is_ .plain => .IS
  | .cmp .is_ .ci => .ISCI
  | .cmp .is_ .cs => .ISCS
  | .cmp .isnot .plain => .ISNOT
  | .cmp .isnot .ci => .ISNOTCI
  | .cmp .isnot .cs => .ISNOTCS
  | .add => .PLUS
  | .subtract => .MINUS
  | .concat => .DOT
  | .multiply => .STAR
  | .divide => .SLASH
  | .remainder => .PERCENT

/-- `opToken` on unary node types, go/export.go:675-680 -/
def unTok : UnTy → Tok
  | .not_ => .NOT
  | .minus => .MINUS
  | .plus => .PLUS

end Viml
