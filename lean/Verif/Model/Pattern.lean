/-
The patterns of the parser, go/vimlfunc.go:12-80 and 90-95.
-/
import Verif.Spec.Regex

namespace Viml
open Spec

/-- `patVim2Go`, go/vimlfunc.go:13-70: the patterns of Vim in the parser, and the regular expressions of Go for them. -/
def patVim2Go : List (Str × Str) := [
  (cs!"[0-9a-zA-Z]", cs!"[0-9a-zA-Z]"),
  (cs!"[@*!=><&~#]", cs!"[@*!=><&~#]"),
  (cs!"\\<ARGOPT\\>", cs!"\\bARGOPT\\b"),
  (cs!"\\<BANG\\>", cs!"\\bBANG\\b"),
  (cs!"\\<EDITCMD\\>", cs!"\\bEDITCMD\\b"),
  (cs!"\\<NOTRLCOM\\>", cs!"\\bNOTRLCOM\\b"),
  (cs!"\\<TRLBAR\\>", cs!"\\bTRLBAR\\b"),
  (cs!"\\<USECTRLV\\>", cs!"\\bUSECTRLV\\b"),
  (cs!"\\<USERCMD\\>", cs!"\\bUSERCMD\\b"),
  (cs!"\\<\\(XFILE\\|FILES\\|FILE1\\)\\>", cs!"\\b(XFILE|FILES|FILE1)\\b"),
  (cs!"\\S", cs!"\\S"),
  (cs!"\\a", cs!"[A-Za-z]"),
  (cs!"\\d", cs!"\\d"),
  (cs!"\\h", cs!"[A-Za-z_]"),
  (cs!"\\s", cs!"\\s"),
  (cs!"\\v^d%[elete][lp]$", cs!"^d(elete|elet|ele|el|e)[lp]$"),
  (cs!"\\v^s%(c[^sr][^i][^p]|g|i[^mlg]|I|r[^e])", cs!"^s(c[^sr][^i][^p]|g|i[^mlg]|I|r[^e])"),
  (cs!"\\w", cs!"[0-9A-Za-z_]"),
  (cs!"\\w\\|[:#]", cs!"[0-9A-Za-z_]|[:#]"),
  (cs!"\\x", cs!"[0-9A-Fa-f]"),
  (cs!"^++", cs!"^\\+\\+"),
  (cs!"^++bad=\\(keep\\|drop\\|.\\)\\>", cs!"^\\+\\+bad=(keep|drop|.)\\b"),
  (cs!"^++bad=drop", cs!"^\\+\\+bad=drop"),
  (cs!"^++bad=keep", cs!"^\\+\\+bad=keep"),
  (cs!"^++bin\\>", cs!"^\\+\\+bin\\b"),
  (cs!"^++edit\\>", cs!"^\\+\\+edit\\b"),
  (cs!"^++enc=\\S", cs!"^\\+\\+enc=\\S"),
  (cs!"^++encoding=\\S", cs!"^\\+\\+encoding=\\S"),
  (cs!"^++ff=\\(dos\\|unix\\|mac\\)\\>", cs!"^\\+\\+ff=(dos|unix|mac)\\b"),
  (cs!"^++fileformat=\\(dos\\|unix\\|mac\\)\\>", cs!"^\\+\\+fileformat=(dos|unix|mac)\\b"),
  (cs!"^++nobin\\>", cs!"^\\+\\+nobin\\b"),
  (cs!"^[A-Z]", cs!"^[A-Z]"),
  (cs!"^\\$\\w\\+", cs!"^\\$[0-9A-Za-z_]+"),
  (cs!"^\\(!\\|global\\|vglobal\\)$", cs!"^(!|global|vglobal)$"),
  (cs!"^\\(WHILE\\|FOR\\)$", cs!"^(WHILE|FOR)$"),
  (cs!"^\\(vimgrep\\|vimgrepadd\\|lvimgrep\\|lvimgrepadd\\)$", cs!"^(vimgrep|vimgrepadd|lvimgrep|lvimgrepadd)$"),
  (cs!"^\\d", cs!"^\\d"),
  (cs!"^\\h", cs!"^[A-Za-z_]"),
  (cs!"^\\s", cs!"^\\s"),
  (cs!"^\\s*\\\\", cs!"^\\s*\\\\"),
  (cs!"^[ \\t]$", cs!"^[ \\t]$"),
  (cs!"^[A-Za-z]$", cs!"^[A-Za-z]$"),
  (cs!"^[0-9A-Za-z]$", cs!"^[0-9A-Za-z]$"),
  (cs!"^[0-9]$", cs!"^[0-9]$"),
  (cs!"^[0-9A-Fa-f]$", cs!"^[0-9A-Fa-f]$"),
  (cs!"^[0-9A-Za-z_]$", cs!"^[0-9A-Za-z_]$"),
  (cs!"^[A-Za-z_]$", cs!"^[A-Za-z_]$"),
  (cs!"^[0-9A-Za-z_:#]$", cs!"^[0-9A-Za-z_:#]$"),
  (cs!"^[A-Za-z_][0-9A-Za-z_]*$", cs!"^[A-Za-z_][0-9A-Za-z_]*$"),
  (cs!"^[A-Z]$", cs!"^[A-Z]$"),
  (cs!"^[a-z]$", cs!"^[a-z]$"),
  (cs!"^[vgslabwt]:$\\|^\\([vgslabwt]:\\)\\?[A-Za-z_][0-9A-Za-z_#]*$", cs!"^[vgslabwt]:$|^([vgslabwt]:)?[A-Za-z_][0-9A-Za-z_#]*$"),
  (cs!"^[0-7]$", cs!"^[0-7]$"),
  (cs!"^[0-9A-Fa-f][0-9A-Fa-f]$", cs!"^[0-9A-Fa-f][0-9A-Fa-f]$"),
  (cs!"^\\.[0-9A-Fa-f]$", cs!"^\\.[0-9A-Fa-f]$"),
  (cs!"^[0-9A-Fa-f][^0-9A-Fa-f]$", cs!"^[0-9A-Fa-f][^0-9A-Fa-f]$"),
  (cs!"^[^a-z]\\S\\+$", cs!"^[^a-z]\\S+$")
]

/-- `viml_eqregh(s, reg)`, go/vimlfunc.go:90-95, is true.  Patterns that are not in the table make it panic; the expressions
are compiled in `init`, go/vimlfunc.go:74-78. -/
def Eqregh (s reg : Str) : Prop := ∃ g r, patVim2Go.lookup reg = some g ∧ Re.parse g = some r ∧ r.Search s

/-- All expressions of the table are well formed. -/
theorem patVim2Go_parse : patVim2Go.all (fun x => (Re.parse x.2).isSome) = true := by decide +kernel

end Viml
