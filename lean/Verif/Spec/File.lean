/-
The grammar of Vim script files: which text is a script, and which tree of the public AST it denotes.
Expressions are those of `Spec/Grammar.lean`, command names those of `Spec/Lookup.lean`; nothing here
refers to the parser.
-/
import Verif.Spec.Grammar
import Verif.Spec.Lookup
import Verif.Spec.Stmt

namespace Viml.Spec

/-! ### Text -/

/-- `v` is all the text at `r` whose characters satisfy `f`. -/
def Span (f : Char → Bool) (r : List Cell) (v : Str) (r' : List Cell) : Prop :=
  Reads r v r' ∧ (∀ c ∈ v, f c = true) ∧ (headSym r').is f = false

/-- All blanks at `r` are skipped. -/
def Skip (r r' : List Cell) : Prop := ∃ w, Span iswhite r w r'

/-- All blanks and colons at `r` are skipped. -/
def SkipC (r r' : List Cell) : Prop := ∃ w, Span (fun c => iswhite c || c == ':') r w r'

/-- The text at `r` starts with `v`. -/
def StartsWith (r : List Cell) (v : Str) : Prop := ∃ r', Reads r v r'

/-- `l` is the rest of the line at `r`. -/
def RestOf (r : List Cell) (l : Str) (r' : List Cell) : Prop := Reads r l r' ∧ AtEnd r'

/-- The public position of a place in the source. -/
def here (env : Env) (fn : Str) (r : List Cell) : Ast.Pos := pubPos fn (posOf env r)

/-! ### Search patterns -/

/-- Brackets open and close collections, in which the delimiter does not end the pattern. -/
def bracket (c : Char) : Int := if c = '[' then 1 else if c = ']' then -1 else 0

/-- A pattern `p` up to the delimiter `d`, which is consumed (`e = [d]`), or to the end of the line (`e = []`).
`n` is the number of brackets open: it is negative after a surplus `]`, and the delimiter counts only
if it is 0. -/
inductive Pat (d : Char) : Int → List Cell → Str → Str → List Cell → Prop
  | eol {n r} : AtEnd r → Pat d n r [] [] r
  | close {r r'} : Reads r [d] r' → Pat d 0 r [] [d] r'
  | esc {n r c r1 p e r'} : Reads r ['\\', c] r1 → ¬ ('\\' = d ∧ n = 0) → Pat d n r1 p e r' →
      Pat d n r ('\\' :: c :: p) e r'
  | char {n r c r1 p e r'} : Reads r [c] r1 → c ≠ '\\' → ¬ (c = d ∧ n = 0) → Pat d (n + bracket c) r1 p e r' →
      Pat d n r (c :: p) e r'

/-! ### Line ranges -/

/-- Offsets after an address: numbers with or without sign, signs alone. -/
inductive Offsets : List Cell → List Str → List Cell → Prop
  | nil {r r'} : Skip r r' → (headSym r').is (fun c => c == '+' || c == '-' || isdigit c) = false → Offsets r [] r'
  | num {r r1 d r2 ts r'} : Skip r r1 → d ≠ [] → Span isdigit r1 d r2 → Offsets r2 ts r' → Offsets r (d :: ts) r'
  | sign {r r1 s r2 d r3 ts r'} : Skip r r1 → s = '+' ∨ s = '-' → Reads r1 [s] r2 → Span isdigit r2 d r3 →
      Offsets r3 ts r' → Offsets r ((s :: d) :: ts) r'

/-- One address, possibly none. -/
inductive Address : List Cell → List Str → List Cell → Prop
  | dot {r r' c} : c = '.' ∨ c = '$' → Reads r [c] r' → Address r [[c]] r'
  | mark {r r' c} : Reads r ['\'', c] r' → Address r [['\'', c]] r'
  | pat {r r1 d p e r'} : d = '/' ∨ d = '?' → Reads r [d] r1 → Pat d 0 r1 p e r' → Address r [p] r'
  | prev {r c r'} : c = '&' ∨ c = '?' ∨ c = '/' → Reads r ['\\', c] r' → Address r [['\\', c]] r'
  | num {r d r'} : d ≠ [] → Span isdigit r d r' → Address r [d] r'
  | none {r} : (headSym r).is (fun c => (cs!".$'/?\\").contains c || isdigit c) = false → Address r [] r

/-- Addresses with offsets up to a separator; only a pattern may follow another address directly. -/
inductive Addresses : List Cell → List Str → List Cell → Prop
  | eol {r r'} : Skip r r' → AtEnd r' → Addresses r [] r'
  | quote {r r1 r'} : Skip r r1 → Reads r1 ['\''] r' → AtEnd r' → Addresses r [] r'
  | one {r r1 a r2 os r'} : Skip r r1 → ¬ AtEnd r1 → Address r1 a r2 → Offsets r2 os r' → headSym r' ≠ .ch '/' →
      headSym r' ≠ .ch '?' → Addresses r (a ++ os) r'
  | more {r r1 a r2 os r3 ts r'} : Skip r r1 → ¬ AtEnd r1 → Address r1 a r2 → Offsets r2 os r3 →
      headSym r3 = .ch '/' ∨ headSym r3 = .ch '?' → Addresses r3 ts r' → Addresses r (a ++ os ++ ts) r'

/-- `%` or `*`, or nothing. -/
inductive WholeFile : List Cell → List Str → List Cell → Prop
  | yes {r c r'} : c = '%' ∨ c = '*' → Reads r [c] r' → WholeFile r [[c]] r'
  | no {r} : headSym r ≠ .ch '%' → headSym r ≠ .ch '*' → WholeFile r [] r

/-- A line range: addresses separated by `,` and `;`. -/
inductive Range : List Cell → List Str → List Cell → Prop
  | last {r as r1 w r'} : Addresses r as r1 → WholeFile r1 w r' → headSym r' ≠ .ch ';' → headSym r' ≠ .ch ',' →
      Range r (as ++ w) r'
  | more {r as r1 w r2 c r3 ts r'} : Addresses r as r1 → WholeFile r1 w r2 → c = ';' ∨ c = ',' → Reads r2 [c] r3 →
      Range r3 ts r' → Range r (as ++ w ++ [[c]] ++ ts) r'

/-! ### The start of a command -/

/-- Counts are numbers of 31 bits. -/
def CountsOK (ms : List Modifier) : Prop := ∀ m ∈ ms, ∀ n, m.count = some n → n < 2147483648

/-- What stands before the name of a command on its line: blanks and colons up to `r0`, modifiers, a range, blanks
and colons up to `rc`. -/
def Before (r r0 : List Cell) (ms : List Modifier) (rg : List Str) (rc : List Cell) : Prop :=
  ¬ StartsWith r cs!"#!" ∧ SkipC r r0 ∧ ¬ AtEnd r0 ∧ headSym r0 ≠ .ch '"' ∧
  ∃ r1 r2, Mods r0 ms r1 ∧ CountsOK ms ∧ Range r1 rg r2 ∧ SkipC r2 rc

/-- A user command. -/
def userCommand (n : Str) : Cmd := ⟨n, 0, [.USERCMD], cs!"parse_cmd_usercmd"⟩

/-- The name of a command.  `used` are the names of user commands in the lines before: the letters of such a name
are a whole name even if digits follow. -/
inductive CmdName (nv : Bool) : List Str → List Cell → Cmd → List Cell → List Str → Prop
  | table {used r n t s c r'} : LineIs r (t ++ s) → NameOf n t s → TableCmd nv n c → ¬ UserWord nv n →
      Reads r t r' → CmdName nv used r c r' used
  | user {used r a r1 b r'} : Span isalpha r a r1 → UserWord nv a → a ∉ used → Span isalnum r1 b r' →
      CmdName nv used r (userCommand (a ++ b)) r' ((a ++ b) :: used)
  | again {used r a r'} : Span isalpha r a r' → UserWord nv a → a ∈ used → CmdName nv used r (userCommand a) r' used

/-- A bang after the command name. -/
inductive Bang (c : Cmd) : List Cell → Bool → List Cell → Prop
  | yes {r r'} : Reads r ['!'] r' → c.name ∉ [cs!"substitute", cs!"smagic", cs!"snomagic"] →
      .BANG ∈ c.flags ∨ .USERCMD ∈ c.flags → Bang c r true r'
  | no {r} : headSym r ≠ .ch '!' ∨ c.name ∈ [cs!"substitute", cs!"smagic", cs!"snomagic"] → Bang c r false r

/-- The word `w`, not followed by more of a word. -/
def WordAt (r : List Cell) (w : Str) (r' : List Cell) : Prop := Reads r w r' ∧ (headSym r').is iswordc = false

/-- One `++opt` argument. -/
inductive ArgOpt (ea : Ast.ExArg) : List Cell → Ast.ExArg → List Cell → Prop
  | bin {r r'} : WordAt r cs!"++bin" r' → ArgOpt ea r { ea with forceBin := 1 } r'
  | nobin {r r'} : WordAt r cs!"++nobin" r' → ArgOpt ea r { ea with forceBin := 2 } r'
  | edit {r r'} : WordAt r cs!"++edit" r' → ArgOpt ea r { ea with readEdit := 1 } r'
  | ff {r p w r'} : p = cs!"++ff=" ∨ p = cs!"++fileformat=" → w ∈ [cs!"dos", cs!"unix", cs!"mac"] →
      WordAt r (p ++ w) r' → ArgOpt ea r { ea with forceFf := w } r'
  | enc {r p r1 v r'} : p = cs!"++enc=" ∨ p = cs!"++encoding=" → Reads r p r1 →
      ¬ AtEnd r1 → (headSym r1).is isSpaceRe = false → Span (fun c => !iswhite c) r1 v r' →
      ArgOpt ea r { ea with forceEnc := v } r'
  | bad {r w r'} : w = cs!"keep" ∨ w = cs!"drop" → WordAt r (cs!"++bad=" ++ w) r' →
      ArgOpt ea r { ea with badChar := w } r'
  | badChar {r c r'} : Reads r (cs!"++bad=" ++ [c]) r' → (headSym r').is iswordc = !iswordc c →
      ArgOpt ea r { ea with badChar := [c] } r'

/-- `++opt` arguments. -/
inductive ArgOpts : Ast.ExArg → List Cell → Ast.ExArg → List Cell → Prop
  | nil {ea r} : ¬ StartsWith r cs!"++" → ArgOpts ea r ea r
  | cons {ea r ea1 r1 r2 ea' r'} : ArgOpt ea r ea1 r1 → Skip r1 r2 → ArgOpts ea1 r2 ea' r' → ArgOpts ea r ea' r'

/-- `>>` and `!` after `:write` and `:update`. -/
inductive WriteOpt (c : Cmd) (ea : Ast.ExArg) : List Cell → Ast.ExArg → List Cell → Prop
  | append {r r1 r'} : c.name = cs!"write" ∨ c.name = cs!"update" → Reads r cs!">>" r1 → Skip r1 r' →
      WriteOpt c ea r { ea with append := 1 } r'
  | filter {r r'} : c.name = cs!"write" → Reads r ['!'] r' → WriteOpt c ea r { ea with usefilter := true } r'
  | none {r} : (c.name = cs!"write" ∨ c.name = cs!"update" → headSym r ≠ .ch '>') →
      (c.name = cs!"write" → headSym r ≠ .ch '!') → WriteOpt c ea r ea r

/-- `!` after `:read`. -/
inductive ReadOpt (c : Cmd) (ea : Ast.ExArg) : List Cell → Ast.ExArg → List Cell → Prop
  | bang {r} : c.name = cs!"read" → ea.forceit = true →
      ReadOpt c ea r { ea with usefilter := true, forceit := false } r
  | filter {r r'} : c.name = cs!"read" → ea.forceit = false → Reads r ['!'] r' →
      ReadOpt c ea r { ea with usefilter := true } r'
  | none {r} : (c.name = cs!"read" → ea.forceit = false ∧ headSym r ≠ .ch '!') → ReadOpt c ea r ea r

/-- Repeated `<` and `>`. -/
inductive ShiftOpt (c : Cmd) (ea : Ast.ExArg) : List Cell → Ast.ExArg → List Cell → Prop
  | shift {r x v r1 r'} : c.name = [x] → x = '<' ∨ x = '>' → Span (· == x) r v r1 → Skip r1 r' →
      ShiftOpt c ea r { ea with amount := v.length + 1 } r'
  | none {r} : c.name ≠ cs!"<" → c.name ≠ cs!">" → ShiftOpt c ea r ea r

/-- The argument of `+cmd`: up to a blank, a backslash takes the next character as it is. -/
inductive CmdArg : List Cell → Str → List Cell → Prop
  | stop {r} : AtEnd r ∨ (headSym r).is iswhite = true → CmdArg r [] r
  | esc {r c r1 v r'} : Reads r ['\\', c] r1 → CmdArg r1 v r' → CmdArg r (c :: v) r'
  | escEnd {r r'} : Reads r ['\\'] r' → AtEnd r' → CmdArg r [] r'
  | char {r c r1 v r'} : Reads r [c] r1 → c ≠ '\\' → iswhite c = false → CmdArg r1 v r' → CmdArg r (c :: v) r'

/-- A `+cmd` argument. -/
inductive PlusCmd (ea : Ast.ExArg) : List Cell → Ast.ExArg → List Cell → Prop
  | last {r r'} : Reads r ['+'] r' → headSym r' = .ch ' ' → PlusCmd ea r { ea with doEcmdCmd := cs!"$" } r'
  | cmd {r r1 v r'} : Reads r ['+'] r1 → headSym r1 ≠ .ch ' ' → CmdArg r1 v r' →
      PlusCmd ea r { ea with doEcmdCmd := v } r'
  | none {r} : headSym r ≠ .ch '+' → PlusCmd ea r ea r

/-- Options before the arguments proper, for the commands that have them. -/
def Options (c : Cmd) (ea : Ast.ExArg) (r : List Cell) (ea' : Ast.ExArg) (r' : List Cell) : Prop :=
  ∃ e1 r1 e2 r2 e3 r3 e4 r4,
    (.ARGOPT ∈ c.flags ∧ ArgOpts ea r e1 r1 ∨ .ARGOPT ∉ c.flags ∧ e1 = ea ∧ r1 = r) ∧
    WriteOpt c e1 r1 e2 r2 ∧ ReadOpt c e2 r2 e3 r3 ∧ ShiftOpt c e3 r3 e4 r4 ∧
    ((.EDITCMD ∈ c.flags ∧ e4.usefilter = false) ∧ PlusCmd e4 r4 ea' r' ∨
      ¬ (.EDITCMD ∈ c.flags ∧ e4.usefilter = false) ∧ ea' = e4 ∧ r' = r4)

/-- A command line at `r` up to the arguments at `r'`: the command `c` with the record `ea`.  `r0` is the start of the
line, `ra` the place that is recorded as that of the arguments. -/
structure CmdHead (nv : Bool) (env : Env) (fn : Str) (used : List Str) (r r0 : List Cell) (ea : Ast.ExArg) (c : Cmd)
    (ra r' : List Cell) (used' : List Str) : Prop where
  intro ::
  ex : ∃ ms rg rc r1 b r2, Before r r0 ms rg rc ∧ ¬ AtEnd rc ∧ headSym rc ≠ .ch '"' ∧ CmdName nv used rc c r1 used' ∧
    Bang c r1 b r2 ∧ (c.name = cs!"!" ∧ ra = r2 ∨ c.name ≠ cs!"!" ∧ Skip r2 ra) ∧
    Options c { forceit := b, linepos := here env fn r0, cmdpos := here env fn rc, argpos := some (here env fn ra), cmd := some c, modifiers := ms, range := rg } ra ea r'

/-! ### Text of raw commands -/

/-- Commands whose arguments start with a pattern that may contain bars. -/
def grepCmds : List Str := [cs!"vimgrep", cs!"vimgrepadd", cs!"lvimgrep", cs!"lvimgrepadd"]

/-- The pattern of `:vimgrep`. -/
inductive GrepPat : List Cell → List Cell → Prop
  | none {r} : AtEnd r → GrepPat r r
  | word {r v r'} : (headSym r).is iswordc = true → Span (fun c => !iswhite c) r v r' → GrepPat r r'
  | open_ {r d r1 p r'} : iswordc d = false → Reads r [d] r1 → Pat d 0 r1 p [] r' → GrepPat r r'
  | pat {r d r1 p r2 v r'} : iswordc d = false → Reads r [d] r1 → Pat d 0 r1 p [d] r2 →
      Span (fun c => c == 'g' || c == 'j') r2 v r' → GrepPat r r'

/-- What ends the text of a raw command: a bar, a line feed character, or a comment unless the command takes quotes.
`:redir @"` is no comment. -/
def EndsRaw (c : Cmd) (ra : List Cell) (pc : Option Char) (r : List Cell) : Prop :=
  headSym r = .ch '|' ∨ headSym r = .ch '\n' ∨
  headSym r = .ch '"' ∧ .NOTRLCOM ∉ c.flags ∧
    ¬ (c.name = cs!"redir" ∧ ra.length = r.length + 1 ∧ pc = some '@')

/-- The command may contain `` `=expr` ``. -/
def takesFiles (c : Cmd) : Prop := .XFILE ∈ c.flags ∨ .FILES ∈ c.flags ∨ .FILE1 ∈ c.flags

/-- Where the text ends if trailing blanks are left out. -/
def trimmed (pc : Option Char) (t r : List Cell) : List Cell := if (pc.map iswhite).getD false then t else r

/-- The text of a raw command: `pc` is the character before, `t` the place up to which there is more than blanks.
It ends at `e`, without trailing blanks at `t'`. -/
inductive RawRun (env : Env) (fn : Str) (c : Cmd) (ra : List Cell) :
    Option Char → List Cell → List Cell → List Cell → List Cell → Prop
  | eol {pc t r} : AtEnd r → RawRun env fn c ra pc t r (trimmed pc t r) r
  | stop {pc t r} : EndsRaw c ra pc r → pc ≠ some '\\' → RawRun env fn c ra pc t r (trimmed pc t r) r
  | ctrlV {pc t r r1 d r2 t' e} : Reads r ['\x16'] r1 → Reads r1 [d] r2 → RawRun env fn c ra (some d) r1 r2 t' e →
      RawRun env fn c ra pc t r t' e
  | ctrlVEnd {pc t r e} : Reads r ['\x16'] e → AtEnd e → RawRun env fn c ra pc t r e e
  | expr {pc t r r1 x r2 r3 t' e} : takesFiles c → Reads r cs!"`=" r1 → Gram env fn 1 r1 x r2 → Reads r2 ['`'] r3 →
      RawRun env fn c ra (some '`') (trimmed pc t r) r3 t' e → RawRun env fn c ra pc t r t' e
  | char {pc t r d r1 t' e} : Reads r [d] r1 → d ≠ '\x16' → ¬ (takesFiles c ∧ StartsWith r cs!"`=") →
      (EndsRaw c ra pc r → pc = some '\\') → RawRun env fn c ra (some d) (trimmed pc t r) r1 t' e →
      RawRun env fn c ra pc t r t' e

/-- The text `s` of a raw command, which starts at `r0` and whose arguments start at `r`: up to a bar or comment, or
for some commands the rest of the line. -/
inductive RawText (env : Env) (fn : Str) (c : Cmd) (filter : Bool) (r0 ra : List Cell) :
    List Cell → Str → List Cell → Prop
  | bar {r r1 t s r'} : .TRLBAR ∈ c.flags → filter = false → (c.name ∈ grepCmds → GrepPat r r1) →
      (c.name ∉ grepCmds → r1 = r) → RawRun env fn c ra none r1 r1 t r' →
      Reads r0 s (if .NOTRLCOM ∈ c.flags then r' else t) → RawText env fn c filter r0 ra r s r'
  | line {r s l r'} : ¬ (.TRLBAR ∈ c.flags ∧ filter = false) → RestOf r l r' → Reads r0 s r' →
      RawText env fn c filter r0 ra r s r'

/-- The argument of `:wincmd`: one character, or two of which the first is `g` or CTRL-G. -/
inductive WinArg : List Cell → List Cell → Prop
  | one {r c r'} : Reads r [c] r' → c ≠ 'g' → c ≠ '\x07' → WinArg r r'
  | two {r c d r'} : Reads r [c, d] r' → c = 'g' ∨ c = '\x07' → iswhite d = false → WinArg r r'

/-- One character is skipped if there is one on the line. -/
inductive Drop : List Cell → List Cell → Prop
  | one {r c r'} : Reads r [c] r' → Drop r r'
  | eol {r} : AtEnd r → Drop r r

/-- The arguments of `:syntax`: bars do not end the command in patterns and after `=`. -/
inductive SynText : List Cell → List Cell → Prop
  | stop {r} : AtEnd r ∨ headSym r = .ch '|' → SynText r r
  | pat {r d r1 p e r2 r3 r'} : d = '/' ∨ d = '\'' ∨ d = '"' → Reads r [d] r1 → Pat d 0 r1 p e r2 → Drop r2 r3 →
      SynText r3 r' → SynText r r'
  | eq {r r1 p e r2 r3 r'} : Reads r ['='] r1 → Pat ' ' 0 r1 p e r2 → Drop r2 r3 → SynText r3 r' → SynText r r'
  | char {r c r1 r'} : Reads r [c] r1 → c ∉ cs!"/'\"=|" → SynText r1 r' → SynText r r'

/-- The text of a command that includes following lines: the line at `r0` and the lines up to the marker `m`. -/
def BlockOf (r0 : List Cell) (m s : Str) (r' : List Cell) : Prop := ∃ line, BlockAt r0 line m s r'

/-- Commands with a parser of their own. -/
def parsedCmds : List Str := nodeOnly ++ scriptCmds ++ [cs!"append", cs!"insert", cs!"loadkeymap", cs!"finish",
  cs!"wincmd", cs!"syntax", cs!"function", cs!"let", cs!"const"]

/-- Commands kept as text. -/
inductive Raw (env : Env) (fn : Str) (top : Bool) (r0 ra : List Cell) (filter : Bool) (c : Cmd) :
    List Cell → Str → List Cell → Prop
  | common {r s r'} : c.name ∉ parsedCmds → RawText env fn c filter r0 ra r s r' → Raw env fn top r0 ra filter c r s r'
  | finish {r s r'} : c.name = cs!"finish" → top = false → RawText env fn c filter r0 ra r s r' →
      Raw env fn top r0 ra filter c r s r'
  -- at the top level `:finish` ends the script
  | finishTop {r s r'} : c.name = cs!"finish" → top = true → RawText env fn c filter r0 ra r s r' →
      Raw env fn top r0 ra filter c r s []
  | append {r s r'} : c.name = cs!"append" ∨ c.name = cs!"insert" → BlockOf r0 cs!"." s r' →
      Raw env fn top r0 ra filter c r s r'
  | keymap {r ls} : c.name = cs!"loadkeymap" → ls ≠ [] → Lines r0 ls [] →
      Raw env fn top r0 ra filter c r (List.intercalate ['\n'] ls) []
  | script {r r1 r2 r3 m r4 s r'} : c.name ∈ scriptCmds → Skip r r1 → Reads r1 cs!"<<" r2 → Skip r2 r3 →
      RestOf r3 m r4 → BlockOf r0 (if m = [] then cs!"." else m) s r' → Raw env fn top r0 ra filter c r s r'
  | scriptLine {r r1 s r'} : c.name ∈ scriptCmds → Skip r r1 → ¬ StartsWith r1 cs!"<<" → RestOf r0 s r' →
      Raw env fn top r0 ra filter c r s r'
  | wincmd {r r1 s r'} : c.name = cs!"wincmd" → WinArg r r1 → Reads r0 s r1 → Skip r1 r' → AtStop r' →
      Raw env fn top r0 ra filter c r s r'
  | syntax {r s r'} : c.name = cs!"syntax" → SynText r r' → Reads r0 s r' → Raw env fn top r0 ra filter c r s r'

/-! ### Ends of lines -/

/-- A comment at `r`; the line end after it is consumed. -/
inductive Comment (env : Env) (fn : Str) : List Cell → Ast.Stmt → List Cell → Prop
  | mk {r r1 t e r'} : Reads r ['"'] r1 → Reads r1 t (e :: r') → e.c = none →
      Comment env fn r (.comment (here env fn r) t) r'

/-- What follows a command: the end of the file or of the line, a bar, or a comment, which is a statement. -/
inductive Trail (env : Env) (fn : Str) : List Cell → List Ast.Stmt → List Cell → Prop
  | eof {r} : Skip r [] → Trail env fn r [] []
  | eol {r e r'} : Skip r (e :: r') → e.c = none → Trail env fn r [] r'
  | bar {r r1 r'} : Skip r r1 → Reads r1 ['|'] r' → Trail env fn r [] r'
  | comment {r r1 s r'} : Skip r r1 → Comment env fn r1 s r' → Trail env fn r [s] r'

/-! ### Assignment targets -/

/-- The first part of an assignment target. -/
inductive LvStart (env : Env) (fn : Str) : List Cell → Ast.Expr → List Cell → Prop
  | lit {r t r' k} : Lex env r t r' → IsLit t.ty k → k = .OPTION ∨ k = .ENV ∨ k = .REG →
      LvStart env fn r (.basicLit (pubPos fn t.pos) k t.value) r'
  | name {r r1 ps r'} : Blanks r r1 → Next env r (fun ty => ty = .identifier ∨ ty = .copen) →
      NameParts env fn r1 ps r' → ps ≠ [] → LvStart env fn r (nameNode (here env fn r1) ps) r'
  | sid {r r1 v r2 ps r'} : Blanks r r1 → Reads r1 v r2 → equalci v ['<', 'S', 'I', 'D', '>'] = true →
      NameParts env fn r2 ps r' →
      LvStart env fn r (nameNode (here env fn r1) (.curlyNameLit (here env fn r1) v :: ps)) r'

/-- A target possibly followed by more subscripts and members. -/
inductive LvChain (env : Env) (fn : Str) : List Cell → Ast.Expr → List Cell → Prop
  | start {r e r'} : LvStart env fn r e r' → LvChain env fn r e r'
  | subscript {r l r1 q r2 x r3 q' r'} : LvChain env fn r l r1 → (headSym r1).is iswhite = false →
      Mark env fn r1 .sqopen q r2 → Gram env fn 1 r2 x r3 → Mark env fn r3 .sqclose q' r' →
      LvChain env fn r (.subscript q l x) r'
  | slice {r l r1 q r2 lo r3 q' r4 hi r5 q'' r'} : LvChain env fn r l r1 → (headSym r1).is iswhite = false →
      Mark env fn r1 .sqopen q r2 → Opt env fn r2 lo r3 → Mark env fn r3 .colon q' r4 →
      Opt env fn r4 hi r5 → Mark env fn r5 .sqclose q'' r' → LvChain env fn r (.slice l q lo hi) r'
  | dot {r l r1 q r2 v r'} : LvChain env fn r l r1 → (headSym r1).is iswhite = false → dotBase l →
      Mark env fn r1 .dot q r2 → Member r2 v r' → LvChain env fn r (.dot l q ⟨here env fn r2, v⟩) r'

/-- A name, option, register or environment variable with subscripts and members. -/
def Lv (env : Env) (fn : Str) (r : List Cell) (e : Ast.Expr) (r' : List Cell) : Prop :=
  LvChain env fn r e r' ∧ ∃ t r2, Lex env r' t r2 ∧ ((headSym r').is iswhite = false → t.ty ≠ .sqopen ∧
    ¬ (t.ty = .dot ∧ dotBase e ∧ ∃ v r3, Member r2 v r3))

/-- Something that can be assigned to. -/
def Target (env : Env) (fn : Str) (r : List Cell) (e : Ast.Expr) (r' : List Cell) : Prop :=
  Lv env fn r e r' ∧ target e

/-- Something that can be defined or deleted as a function. -/
def FuncName (env : Env) (fn : Str) (r : List Cell) (e : Ast.Expr) (r' : List Cell) : Prop :=
  Lv env fn r e r' ∧ funcTarget e

/-- A variable that `:const` can define. -/
def ConstTarget (env : Env) (fn : Str) (r : List Cell) (e : Ast.Expr) (r' : List Cell) : Prop :=
  Target env fn r e r' ∧ ((∃ i, e = .ident i) ∨ ∃ q ps, e = .curlyName q ps)

/-- The rest of a bracketed list of targets. -/
inductive TargetList (env : Env) (fn : Str) : List Cell → List Ast.Expr → Option Ast.Expr → List Cell → Prop
  | last {r e r1 q r'} : Target env fn r e r1 → Mark env fn r1 .sqclose q r' → TargetList env fn r [e] none r'
  | cons {r e r1 q r2 es x r'} : Target env fn r e r1 → Mark env fn r1 .comma q r2 → TargetList env fn r2 es x r' →
      TargetList env fn r (e :: es) x r'
  | rest {r e r1 q r2 x r3 q' r'} : Target env fn r e r1 → Mark env fn r1 .semicolon q r2 → Target env fn r2 x r3 →
      Mark env fn r3 .sqclose q' r' → TargetList env fn r [e] (some x) r'

/-- The left-hand side of an assignment: one target of the kind `S`, or a list. -/
inductive LhsAt (env : Env) (fn : Str) (S : List Cell → Ast.Expr → List Cell → Prop) :
    List Cell → Option Ast.Expr → List Ast.Expr → Option Ast.Expr → List Cell → Prop
  | one {r e r'} : Next env r (· ≠ .sqopen) → S r e r' → LhsAt env fn S r (some e) [] none r'
  | list {r q r1 es x r'} : Mark env fn r .sqopen q r1 → TargetList env fn r1 es x r' → LhsAt env fn S r none es x r'

/-- Targets separated by blanks up to the end of the command. -/
inductive Targets (env : Env) (fn : Str) : List Cell → List Ast.Expr → List Cell → Prop
  | nil {r r'} : Skip r r' → AtStop r' → Targets env fn r [] r'
  | cons {r r1 e r2 es r'} : Skip r r1 → ¬ AtStop r1 → Target env fn r1 e r2 → Targets env fn r2 es r' →
      Targets env fn r (e :: es) r'

/-- Arguments of `:unlet` and `:lockvar`: the first can be any expression, the others are targets. -/
inductive LockArgs (env : Env) (fn : Str) : List Cell → List Ast.Expr → List Cell → Prop
  | mk {r e r1 es r'} : Gram env fn 1 r e r1 → Targets env fn r1 es r' → LockArgs env fn r (e :: es) r'

/-- The depth of `:lockvar`; 0 if there is none. -/
inductive Depth : List Cell → Nat → List Cell → Prop
  | num {r r1 d r'} : Skip r r1 → d ≠ [] → Span isdigit r1 d r' → decVal d < 2147483648 → Depth r (decVal d) r'
  | none {r r'} : Skip r r' → (headSym r').is isdigit = false → Depth r 0 r'

/-- Expressions up to the end of the line or a bar. -/
inductive Exprs (env : Env) (fn : Str) : List Cell → List Ast.Expr → List Cell → Prop
  | nil {r r'} : Skip r r' → AtEnd r' ∨ headSym r' = .ch '|' → Exprs env fn r [] r'
  | cons {r r1 e r2 es r'} : Skip r r1 → ¬ (AtEnd r1 ∨ headSym r1 = .ch '|') → Gram env fn 1 r1 e r2 →
      Exprs env fn r2 es r' → Exprs env fn r (e :: es) r'

/-! ### Functions -/

/-- Names that a function can have if it is a plain name. -/
def FuncNameOK (e : Ast.Expr) : Prop := ∀ i, e = .ident i → ∃ c t, i.name = c :: t ∧
  (c = '<' ∨ c = '_' ∨ isupper c = true ∨ ':' ∈ c :: t ∨ '#' ∈ c :: t)

/-- One parameter with its default value; without one if no parameter before has one (`d`). -/
inductive Param (env : Env) (fn : Str) (used : List Str) (d : Bool) :
    List Cell → Ast.Ident → List Ast.Expr → List Cell → Prop
  | plain {r t r'} : Lex env r t r' → t.ty = .identifier → isargname t.value = true →
      t.value ∉ cs!"firstline" :: cs!"lastline" :: used → Next env r' (· ≠ .eq) → d = false →
      Param env fn used d r ⟨pubPos fn t.pos, t.value⟩ [] r'
  | default {r t r1 q r2 e r'} : Lex env r t r1 → t.ty = .identifier → isargname t.value = true →
      t.value ∉ cs!"firstline" :: cs!"lastline" :: used → Mark env fn r1 .eq q r2 → Gram env fn 1 r2 e r' →
      Param env fn used d r ⟨pubPos fn t.pos, t.value⟩ [e] r'

/-- Parameters up to the closing parenthesis; there is at least one. -/
inductive ParamList (env : Env) (fn : Str) : List Str → Bool → List Cell → List Ast.Ident → List Ast.Expr →
    List Cell → Prop
  | dots {used d r t r1 q r'} : Lex env r t r1 → t.ty = .dotdotdot → Mark env fn r1 .pclose q r' →
      ParamList env fn used d r [⟨pubPos fn t.pos, t.value⟩] [] r'
  | last {used d r i ds r1 q r'} : Param env fn used d r i ds r1 → Mark env fn r1 .pclose q r' →
      ParamList env fn used d r [i] ds r'
  | comma {used d r i ds r1 q r2 q' r'} : Param env fn used d r i ds r1 → (headSym r1).is iswhite = false →
      Mark env fn r1 .comma q r2 → Mark env fn r2 .pclose q' r' → ParamList env fn used d r [i] ds r'
  | cons {used d r i ds r1 q r2 is es r'} : Param env fn used d r i ds r1 → (headSym r1).is iswhite = false →
      Mark env fn r1 .comma q r2 → Next env r2 (· ≠ .pclose) →
      ParamList env fn (i.name :: used) (d || !ds.isEmpty) r2 is es r' →
      ParamList env fn used d r (i :: is) (ds ++ es) r'

/-- The parameters of a function. -/
inductive FuncParamsAt (env : Env) (fn : Str) : List Cell → List Ast.Ident → List Ast.Expr → List Cell → Prop
  | none {r q r'} : Mark env fn r .pclose q r' → FuncParamsAt env fn r [] [] r'
  | some {r is ds r'} : Next env r (· ≠ .pclose) → ParamList env fn [] false r is ds r' → FuncParamsAt env fn r is ds r'

/-- Words after the parameters. -/
inductive Attrs : List Cell → List Str → List Cell → Prop
  | nil {r r'} : Skip r r' → (headSym r').is isalpha = false → Attrs r [] r'
  | cons {r r1 k r2 ks r'} : Skip r r1 → Span isalpha r1 k r2 → k ∈ [cs!"range", cs!"abort", cs!"dict", cs!"closure"] →
      Attrs r2 ks r' → Attrs r (k :: ks) r'

def attrsOf (ks : List Str) : FuncAttr :=
  ⟨decide (cs!"range" ∈ ks), decide (cs!"abort" ∈ ks), decide (cs!"dict" ∈ ks), decide (cs!"closure" ∈ ks)⟩

/-- What `:function` is followed by if it lists functions: nothing, a pattern, or a name without parameters. -/
inductive FuncListing (env : Env) (fn : Str) : List Cell → Prop
  | all {r r1} : Skip r r1 → AtStop r1 ∨ headSym r1 = .ch '/' → FuncListing env fn r
  | one {r r1 e r2 r3} : Skip r r1 → ¬ AtStop r1 → headSym r1 ≠ .ch '/' → FuncName env fn r1 e r2 → FuncNameOK e →
      Skip r2 r3 → headSym r3 ≠ .ch '(' → FuncListing env fn r

/-- The head of a function definition. -/
inductive FuncHead (env : Env) (fn : Str) :
    List Cell → Ast.Expr → List Ast.Ident → List Ast.Expr → FuncAttr → List Cell → Prop
  | mk {r r1 e r2 r3 r4 is ds r5 ks r'} : Skip r r1 → ¬ AtStop r1 → headSym r1 ≠ .ch '/' → FuncName env fn r1 e r2 →
      FuncNameOK e → Skip r2 r3 → Reads r3 ['('] r4 → FuncParamsAt env fn r4 is ds r5 → Attrs r5 ks r' →
      FuncHead env fn r e is ds (attrsOf ks) r'

/-! ### :let -/

/-- The left-hand side of `:let` and blanks after it. -/
def LetLeft (env : Env) (fn : Str) (S : List Cell → Ast.Expr → List Cell → Prop) (r : List Cell)
    (l : Option Ast.Expr) (ls : List Ast.Expr) (x : Option Ast.Expr) (r' : List Cell) : Prop :=
  ∃ r1 r2, Skip r r1 ∧ ¬ AtStop r1 ∧ LhsAt env fn S r1 l ls x r2 ∧ Skip r2 r'

/-- `:let` and `:const` list variables if there is no assignment: nothing follows, or a left-hand side without
one of the operators `ops`. -/
inductive LetListing (env : Env) (fn : Str) (S : List Cell → Ast.Expr → List Cell → Prop) (ops : List Str) :
    List Cell → Prop
  | all {r r1} : Skip r r1 → AtStop r1 → LetListing env fn S ops r
  | some {r l ls x r'} : LetLeft env fn S r l ls x r' → (∀ op ∈ ops, ¬ StartsWith r' op) → LetListing env fn S ops r

/-- Flags and end marker of a heredoc: the marker is the first word that does not start with a lower case letter. -/
inductive HereHead (env : Env) : List Cell → List (Pos × Str) → Str → List Cell → Prop
  | marker {r r1 c m r'} : Skip r r1 → Span iswordc r1 (c :: m) r' → islower c = false →
      HereHead env r [] (c :: m) r'
  | flag {r r1 c f r2 fs m r'} : Skip r r1 → Span iswordc r1 (c :: f) r2 → islower c = true →
      HereHead env r2 fs m r' → HereHead env r ((posOf env r1, c :: f) :: fs) m r'

/-! ### Simple commands -/

/-- Where a command stands: at the top level, in a function, in a loop. -/
structure Ctx where
  top : Bool := false
  inFunction : Bool := false
  inLoop : Bool := false
deriving DecidableEq, Repr

/-- Commands that are no part of a block, and the statements they denote. -/
inductive Simple (env : Env) (fn : Str) (cx : Ctx) (r0 ra : List Cell) (ea : Ast.ExArg) (c : Cmd) :
    List Cell → List Ast.Stmt → List Cell → Prop
  | raw {r s r'} : Raw env fn cx.top r0 ra ea.usefilter c r s r' →
      Simple env fn cx r0 ra ea c r [.excmd ea.cmdpos ea s] r'
  | funcListing {r s r'} : c.name = cs!"function" → FuncListing env fn r →
      RawText env fn c ea.usefilter r0 ra r s r' → Simple env fn cx r0 ra ea c r [.excmd ea.cmdpos ea s] r'
  | delfunction {r e r'} : c.name = cs!"delfunction" → FuncName env fn r e r' →
      Simple env fn cx r0 ra ea c r [.delFunction ea.cmdpos ea e] r'
  | return_ {r r1 e r'} : c.name = cs!"return" → cx.inFunction = true → Skip r r1 →
      ¬ (AtEnd r1 ∨ headSym r1 = .ch '|') → Gram env fn 1 r1 e r' →
      Simple env fn cx r0 ra ea c r [.return_ ea.cmdpos ea (some e)] r'
  | returnNone {r r'} : c.name = cs!"return" → cx.inFunction = true → Skip r r' →
      AtEnd r' ∨ headSym r' = .ch '|' → Simple env fn cx r0 ra ea c r [.return_ ea.cmdpos ea none] r'
  | call {r r1 f q as r'} : c.name = cs!"call" → Skip r r1 → ¬ AtStop r1 → Gram env fn 1 r1 (.call f q as) r' →
      Simple env fn cx r0 ra ea c r [.exCall ea.cmdpos ea f q as] r'
  | letListing {r s r'} : c.name = cs!"let" → LetListing env fn (Target env fn) (cs!"=<<" :: letOps) r →
      RawText env fn c ea.usefilter r0 ra r s r' → Simple env fn cx r0 ra ea c r [.excmd ea.cmdpos ea s] r'
  | let_ {r l ls x r1 op r2 e r'} : c.name = cs!"let" → LetLeft env fn (Target env fn) r l ls x r1 → op ∈ letOps →
      ¬ StartsWith r1 cs!"=<<" → Reads r1 op r2 → Gram env fn 1 r2 e r' →
      Simple env fn cx r0 ra ea c r [.let_ ea.cmdpos ea op l ls x e] r'
  | heredoc {r l ls x r1 r2 fs m r3 cm r4 body r'} : c.name = cs!"let" → LetLeft env fn (Target env fn) r l ls x r1 →
      Reads r1 cs!"=<<" r2 → HereHead env r2 fs m r3 → Trail env fn r3 cm r4 → HLines env m r4 body r' →
      Simple env fn cx r0 ra ea c r
        (cm ++ [.let_ ea.cmdpos ea cs!"=<<" l ls x (.heredoc ea.cmdpos (strNodes fn fs) m (strNodes fn body))]) r'
  | constListing {r s r'} : c.name = cs!"const" → LetListing env fn (ConstTarget env fn) [cs!"="] r →
      RawText env fn c ea.usefilter r0 ra r s r' → Simple env fn cx r0 ra ea c r [.excmd ea.cmdpos ea s] r'
  | const_ {r l ls x r1 r2 e r'} : c.name = cs!"const" → LetLeft env fn (ConstTarget env fn) r l ls x r1 →
      Reads r1 cs!"=" r2 → Gram env fn 1 r2 e r' →
      Simple env fn cx r0 ra ea c r [.let_ ea.cmdpos ea cs!"=" l ls x e] r'
  | unlet {r es r'} : c.name = cs!"unlet" → LockArgs env fn r es r' →
      Simple env fn cx r0 ra ea c r [.unLet ea.cmdpos ea es] r'
  | lockvar {r n r1 es r'} : c.name = cs!"lockvar" → Depth r n r1 → LockArgs env fn r1 es r' →
      Simple env fn cx r0 ra ea c r [.lockVar ea.cmdpos ea n es] r'
  | unlockvar {r n r1 es r'} : c.name = cs!"unlockvar" → Depth r n r1 → LockArgs env fn r1 es r' →
      Simple env fn cx r0 ra ea c r [.unLockVar ea.cmdpos ea n es] r'
  | continue_ {r} : c.name = cs!"continue" → cx.inLoop = true →
      Simple env fn cx r0 ra ea c r [.continue_ ea.cmdpos ea] r
  | break_ {r} : c.name = cs!"break" → cx.inLoop = true → Simple env fn cx r0 ra ea c r [.break_ ea.cmdpos ea] r
  | throw {r e r'} : c.name = cs!"throw" → Gram env fn 1 r e r' →
      Simple env fn cx r0 ra ea c r [.throw ea.cmdpos ea e] r'
  | eval {r e r'} : c.name = cs!"eval" → Gram env fn 1 r e r' →
      Simple env fn cx r0 ra ea c r [.eval ea.cmdpos ea e] r'
  | echo {r es r'} : c.name ∈ [cs!"echo", cs!"echon", cs!"echomsg", cs!"echoerr"] → Exprs env fn r es r' →
      Simple env fn cx r0 ra ea c r [.echoCmd ea.cmdpos c.name ea es] r'
  | echohl {r s r'} : c.name = cs!"echohl" → Span (fun x => x != '|' && x != '"') r s r' →
      Simple env fn cx r0 ra ea c r [.echohl ea.cmdpos ea s] r'
  | execute {r es r'} : c.name = cs!"execute" → Exprs env fn r es r' →
      Simple env fn cx r0 ra ea c r [.execute ea.cmdpos ea es] r'

/-! ### Blocks -/

/-- A block command with its arguments and what follows on its line: the command `n` with record `ea`, arguments
`A` and the statements `cm` of its comment.  The body of the block starts at `r'`. -/
def Opens {α : Type} (nv : Bool) (env : Env) (fn : Str) (n : Str) (A : List Cell → α → List Cell → Prop) (used : List Str)
    (r : List Cell) (ea : Ast.ExArg) (a : α) (cm : List Ast.Stmt) (used' : List Str) (r' : List Cell) : Prop :=
  ∃ r0 c ra r1 r2, c.name = n ∧ CmdHead nv env fn used r r0 ea c ra r1 used' ∧ A r1 a r2 ∧ Trail env fn r2 cm r'

/-- The command `n` that ends a block; what follows it on the line is not included. -/
def Closes (nv : Bool) (env : Env) (fn : Str) (n : Str) (used : List Str) (r : List Cell) (e : Ast.EndCmd)
    (used' : List Str) (r' : List Cell) : Prop :=
  ∃ r0 ea c ra r1, c.name = n ∧ CmdHead nv env fn used r r0 ea c ra r1 used' ∧ e = ⟨ea.cmdpos, ea⟩ ∧
    if n = cs!"endfunction" then ∃ l, RestOf r1 l r' else r' = r1

/-- No arguments. -/
def NoArgs (r : List Cell) (_ : Unit) (r' : List Cell) : Prop := r' = r

/-- The pattern of `:catch`, possibly none. -/
inductive CatchArg : List Cell → Str → List Cell → Prop
  | none {r r'} : Skip r r' → AtStop r' → CatchArg r [] r'
  | pat {r r1 d r2 p e r'} : Skip r r1 → ¬ AtStop r1 → Reads r1 [d] r2 → Pat d 0 r2 p e r' → CatchArg r p r'

/-- The arguments of `:for`. -/
inductive ForArgs (env : Env) (fn : Str) :
    List Cell → Option Ast.Expr × List Ast.Expr × Option Ast.Expr × Ast.Expr → List Cell → Prop
  | mk {r l ls x r1 r2 r3 e r'} : LhsAt env fn (Target env fn) r l ls x r1 → Skip r1 r2 → Span isalpha r2 cs!"in" r3 →
      Gram env fn 1 r3 e r' → ForArgs env fn r (l, ls, x, e) r'

def FuncArgs (env : Env) (fn : Str) (r : List Cell) (a : Ast.Expr × List Ast.Ident × List Ast.Expr × FuncAttr)
    (r' : List Cell) : Prop := FuncHead env fn r a.1 a.2.1 a.2.2.1 a.2.2.2 r'

/-- In a loop. -/
def Ctx.loop (cx : Ctx) : Ctx := { cx with top := false, inLoop := true }
/-- In a function. -/
def Ctx.fun (cx : Ctx) : Ctx := { cx with top := false, inFunction := true }
/-- In another block. -/
def Ctx.block (cx : Ctx) : Ctx := { cx with top := false }

mutual

/-- `Body nv env fn cx used r ss used' r'`: the lines from `r` to `r'` denote the statements `ss`. -/
inductive Body (nv : Bool) (env : Env) (fn : Str) :
    Ctx → List Str → List Cell → List Ast.Stmt → List Str → List Cell → Prop
  | nil {cx used r} : Body nv env fn cx used r [] used r
  -- a line that starts with `#!`
  | shebang {cx used r ss used' r1 l e r'} : Body nv env fn cx used r ss used' r1 → StartsWith r1 cs!"#!" →
      Reads r1 l (e :: r') → e.c = none → Body nv env fn cx used r ss used' r'
  -- an empty line
  | empty {cx used r ss used' r1 e r'} : Body nv env fn cx used r ss used' r1 → SkipC r1 (e :: r') → e.c = none →
      Body nv env fn cx used r ss used' r'
  | comment {cx used r ss used' r1 r2 s r'} : Body nv env fn cx used r ss used' r1 → SkipC r1 r2 →
      Comment env fn r2 s r' → Body nv env fn cx used r (ss ++ [s]) used' r'
  -- modifiers and range without a command
  | noCommand {cx used r ss used' r1 r0 ms rg rc s cm r'} : Body nv env fn cx used r ss used' r1 →
      Before r1 r0 ms rg rc → AtEnd rc ∨ headSym rc = .ch '"' → Reads r0 s rc → Trail env fn rc cm r' →
      Body nv env fn cx used r (ss ++ (if ms = [] ∧ rg = [] then [] else [.excmd (here env fn rc)
        { linepos := here env fn r0, cmdpos := here env fn rc, modifiers := ms, range := rg } s]) ++ cm) used' r'
  | simple {cx used r ss used1 r1 r0 ea c ra r2 xs r3 cm used' r'} : Body nv env fn cx used r ss used1 r1 →
      CmdHead nv env fn used1 r1 r0 ea c ra r2 used' → Simple env fn cx r0 ra ea c r2 xs r3 → Trail env fn r3 cm r' →
      Body nv env fn cx used r (ss ++ xs ++ cm) used' r'
  | block {cx used r ss used1 r1 s used' r2 cm r'} : Body nv env fn cx used r ss used1 r1 →
      Block nv env fn cx used1 r1 s used' r2 → Trail env fn r2 cm r' →
      Body nv env fn cx used r (ss ++ [s] ++ cm) used' r'

/-- A block with its end command. -/
inductive Block (nv : Bool) (env : Env) (fn : Str) :
    Ctx → List Str → List Cell → Ast.Stmt → List Str → List Cell → Prop
  | function {cx used r ea n is ds at_ cm used1 r1 ss used2 r2 e used' r'} :
      Opens nv env fn cs!"function" (FuncArgs env fn) used r ea (n, is, ds, at_) cm used1 r1 →
      Body nv env fn cx.fun used1 r1 ss used2 r2 → Closes nv env fn cs!"endfunction" used2 r2 e used' r' →
      Block nv env fn cx used r (.function ea.cmdpos ea (cm ++ ss) n is ds at_ e) used' r'
  | while_ {cx used r ea x cm used1 r1 ss used2 r2 e used' r'} :
      Opens nv env fn cs!"while" (Gram env fn 1) used r ea x cm used1 r1 →
      Body nv env fn cx.loop used1 r1 ss used2 r2 → Closes nv env fn cs!"endwhile" used2 r2 e used' r' →
      Block nv env fn cx used r (.while_ ea.cmdpos ea (cm ++ ss) x e) used' r'
  | for_ {cx used r ea l ls rest x cm used1 r1 ss used2 r2 e used' r'} :
      Opens nv env fn cs!"for" (ForArgs env fn) used r ea (l, ls, rest, x) cm used1 r1 →
      Body nv env fn cx.loop used1 r1 ss used2 r2 → Closes nv env fn cs!"endfor" used2 r2 e used' r' →
      Block nv env fn cx used r (.for_ ea.cmdpos ea (cm ++ ss) l ls rest x e) used' r'
  | if_ {cx used r ea ss x eis used1 r1 e used' r'} : IfPart nv env fn cx used r ea ss x eis used1 r1 →
      Closes nv env fn cs!"endif" used1 r1 e used' r' →
      Block nv env fn cx used r (.if_ ea.cmdpos ea ss x eis none e) used' r'
  | ifElse {cx used r ea ss x eis used1 r1 ea' cm used2 r2 ss' used3 r3 e used' r'} :
      IfPart nv env fn cx used r ea ss x eis used1 r1 → Opens nv env fn cs!"else" NoArgs used1 r1 ea' () cm used2 r2 →
      Body nv env fn cx.block used2 r2 ss' used3 r3 → Closes nv env fn cs!"endif" used3 r3 e used' r' →
      Block nv env fn cx used r (.if_ ea.cmdpos ea ss x eis (some (.else_ ea'.cmdpos ea' (cm ++ ss'))) e) used' r'
  | try_ {cx used r ea ss cs used1 r1 e used' r'} : TryPart nv env fn cx used r ea ss cs used1 r1 →
      Closes nv env fn cs!"endtry" used1 r1 e used' r' →
      Block nv env fn cx used r (.try_ ea.cmdpos ea ss cs none e) used' r'
  | tryFinally {cx used r ea ss cs used1 r1 ea' cm used2 r2 ss' used3 r3 e used' r'} :
      TryPart nv env fn cx used r ea ss cs used1 r1 → Opens nv env fn cs!"finally" NoArgs used1 r1 ea' () cm used2 r2 →
      Body nv env fn cx.block used2 r2 ss' used3 r3 → Closes nv env fn cs!"endtry" used3 r3 e used' r' →
      Block nv env fn cx used r (.try_ ea.cmdpos ea ss cs (some (.finally_ ea'.cmdpos ea' (cm ++ ss'))) e) used' r'

/-- `:if` and the `:elseif`s. -/
inductive IfPart (nv : Bool) (env : Env) (fn : Str) : Ctx → List Str → List Cell → Ast.ExArg → List Ast.Stmt →
    Ast.Expr → List Ast.Stmt → List Str → List Cell → Prop
  | if_ {cx used r ea x cm used1 r1 ss used' r'} : Opens nv env fn cs!"if" (Gram env fn 1) used r ea x cm used1 r1 →
      Body nv env fn cx.block used1 r1 ss used' r' → IfPart nv env fn cx used r ea (cm ++ ss) x [] used' r'
  | elseif {cx used r ea ss x eis used1 r1 ea' x' cm used2 r2 ss' used' r'} :
      IfPart nv env fn cx used r ea ss x eis used1 r1 →
      Opens nv env fn cs!"elseif" (Gram env fn 1) used1 r1 ea' x' cm used2 r2 →
      Body nv env fn cx.block used2 r2 ss' used' r' →
      IfPart nv env fn cx used r ea ss x (eis ++ [.elseIf ea'.cmdpos ea' (cm ++ ss') x']) used' r'

/-- `:try` and the `:catch`es. -/
inductive TryPart (nv : Bool) (env : Env) (fn : Str) : Ctx → List Str → List Cell → Ast.ExArg → List Ast.Stmt →
    List Ast.Stmt → List Str → List Cell → Prop
  | try_ {cx used r ea cm used1 r1 ss used' r'} : Opens nv env fn cs!"try" NoArgs used r ea () cm used1 r1 →
      Body nv env fn cx.block used1 r1 ss used' r' → TryPart nv env fn cx used r ea (cm ++ ss) [] used' r'
  | catch_ {cx used r ea ss cs used1 r1 ea' p cm used2 r2 ss' used' r'} :
      TryPart nv env fn cx used r ea ss cs used1 r1 →
      Opens nv env fn cs!"catch" CatchArg used1 r1 ea' p cm used2 r2 →
      Body nv env fn cx.block used2 r2 ss' used' r' →
      TryPart nv env fn cx used r ea ss (cs ++ [.catch_ ea'.cmdpos ea' (cm ++ ss') p]) used' r'

end

/-- A whole script. -/
def Script (nv : Bool) (env : Env) (fn : Str) (f : Ast.File) : Prop :=
  ∃ used, Body nv env fn { top := true } [] env.buf f.body used [] ∧ f.start = here env fn env.buf

end Viml.Spec
