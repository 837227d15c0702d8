/-
The catalogue of error messages.  Nothing here refers to the parser.
-/
import Verif.Spec.FileError

namespace Viml.Spec

/-- Messages that always read the same, but for `E740`. -/
def fixedMessages : List Str :=
  [cs!"E107: Missing parentheses: lambda",
   cs!"E10: \\\\ should be followed by /, ? or &",
   cs!"E126: Missing :endfunction:    TOPLEVEL",
   cs!"E133: :return not inside a function",
   cs!"E170: Missing :endfor:    ENDFUNCTION",
   cs!"E170: Missing :endfor:    TOPLEVEL",
   cs!"E170: Missing :endwhile:    ENDFUNCTION",
   cs!"E170: Missing :endwhile:    TOPLEVEL",
   cs!"E171: Missing :endif:    ENDFUNCTION",
   cs!"E171: Missing :endif:    TOPLEVEL",
   cs!"E172: Missing marker",
   cs!"E193: :endfunction not inside a function",
   cs!"E471: Argument required",
   cs!"E474: Invalid Argument",
   cs!"E475: Invalid argument: White space is not allowed before comma",
   cs!"E477: No ! allowed",
   cs!"E494: Use w or w>>",
   cs!"E580: :endif without :if",
   cs!"E581: :else without :if",
   cs!"E582: :elseif without :if",
   cs!"E586: :continue without :while or :for",
   cs!"E587: :break without :while or :for",
   cs!"E588: :endfor without :for",
   cs!"E588: :endwhile without :while",
   cs!"E600: Missing :endtry:    ENDFUNCTION",
   cs!"E600: Missing :endtry:    TOPLEVEL",
   cs!"E602: :endtry without :try",
   cs!"E603: :catch without :try",
   cs!"E604: :catch after :finally",
   cs!"E606: :finally without :try",
   cs!"E682: Invalid search pattern or delimiter",
   cs!"E989: Non-default argument follows default argument",
   cs!"E996: Cannot lock a list or dict",
   cs!"E996: Cannot lock a register",
   cs!"E996: Cannot lock an environment variable",
   cs!"E996: Cannot lock an option",
   cs!"ExprTokenizer: unexpected EOL",
   cs!"Invalid Expression",
   cs!"Missing \"in\" after :for",
   cs!"Not an function call",
   cs!"unexpectd EOL",
   cs!"unexpected EOL"]

/-- The beginnings of the messages that quote a part of the source. -/
def quotingMessages : List Str :=
  [cs!"E125: Illegal argument: ",
   cs!"E128: Function name must start with a capital or contain a colon: ",
   cs!"E461: Illegal variable name: ",
   cs!"E475 Invalid argument: ",
   cs!"E488: Trailing characters: ",
   cs!"E492: Not an editor command: ",
   cs!"E853: Duplicate argument name: ",
   cs!"E973: Blob literal should have an even number of hex characters:",
   cs!"unexpected character: ",
   cs!"unexpected token: "]

def e740 : Str := cs!"E740: Too many arguments for function"

/-- Where an error with the message `e740` points: more than 20 arguments follow a parenthesis of the source, and `q` is the
position of the token after the last of them. -/
def TooMany (env : Env) (fn : Str) (q : Pos) : Prop :=
  ∃ n r0 q0 r, r0 <:+ env.buf ∧ Mark env fn r0 .popen q0 r ∧ Counted env fn n r q ∧ 20 < n

/-- What a message can quote: a piece of a line of the source, or the end of a line or of the file. -/
def Quoted (env : Env) (s : Str) : Prop :=
  s = cs!"<EOL>" ∨ s = cs!"<EOF>" ∨ ∃ r r', r <:+ env.buf ∧ Reads r s r'

/-- What the messages are. -/
inductive Message (env : Env) (fn : Str) : Str → Pos → Prop
  | fixed {m q} : m ∈ fixedMessages → Message env fn m q
  | quoting {p s q} : p ∈ quotingMessages → Quoted env s → Message env fn (p ++ s) q
  -- what follows a parameter of a lambda: the type of the token is shown, too
  | lambda {s n q} : Quoted env s →
      Message env fn (cs!"unexpected token: " ++ s ++ cs!", type: " ++ Nat.toDigits 10 n) q
  | marker {s q} : Quoted env s → Message env fn (cs!"E990: Missing end marker '" ++ s ++ cs!"'") q
  | tooMany {q} : TooMany env fn q → Message env fn e740 q

end Viml.Spec
