/-
The command parser `VimLParser`, go/vimlparser.go:350-1983.

`self.ea` is the argument `ea`, `self.ea.cmd` the argument `cmd`; functions that change the context
or the command cache take and return a `PState`.
-/
import Verif.Model.ExprParser
import Verif.Model.Stmt

namespace Viml
open Prog

/-- `viml_eqregh(cmd.flags, "\\<F\\>")` -/
def Cmd.has (c : Cmd) (f : Flag) : Bool := c.flags.contains f

/-- `ends_excmds`, go/vimlparser.go:1932-1934, on the result of `peek` -/
def endsSym : Sym → Bool
  | .eof => true
  | .eol => true
  | .ch c => c == '|' || c == '"'

/-- `ends_excmds`, go/vimlparser.go:1932-1934, on the result of `peekn(1)` -/
def endsStr : Str → Bool
  | [] => true
  | [c] => c == '|' || c == '"'
  | _ => false

/-- `viml_str2nr(s, 10)` on a digit string, go/vimlfunc.go:141-147: 32 bit range. -/
def digitsVal (s : Str) : Nat := s.foldl (fun n c => n * 10 + (c.toNat - 48)) 0

def str2nr (s : Str) : Prog Nat :=
  if digitsVal s < 2147483648 then pure (digitsVal s) else .fail .num

def Head.isFunction : Head → Bool | .function .. => true | _ => false
def Head.isIf : Head → Bool | .if_ .. => true | _ => false
def Head.isElseif : Head → Bool | .elseif .. => true | _ => false
def Head.isElse : Head → Bool | .else_ .. => true | _ => false
def Head.isWhile : Head → Bool | .while_ .. => true | _ => false
def Head.isFor : Head → Bool | .for_ .. => true | _ => false
def Head.isTry : Head → Bool | .try_ .. => true | _ => false
def Head.isCatch : Head → Bool | .catch_ .. => true | _ => false
def Head.isFinally : Head → Bool | .finally_ .. => true | _ => false
def Head.isToplevel : Head → Bool | .toplevel => true | _ => false

/-- `find_context(type) != -1`, go/vimlparser.go:350-359 -/
def PState.inContext (st : PState) (f : Head → Bool) : Bool :=
  (st.cur :: st.stack).any fun fr => f fr.head

/-- go/vimlparser.go:365-369 -/
def checkMissingEndfunction (st : PState) (ends : Str) (q : Pos) : Prog Unit :=
  if st.cur.head.isFunction then errAt (cs!"E126: Missing :endfunction:    " ++ ends) q else pure ()
/-- go/vimlparser.go:371-375 -/
def checkMissingEndif (st : PState) (ends : Str) (q : Pos) : Prog Unit :=
  if st.cur.head.isIf || st.cur.head.isElseif || st.cur.head.isElse then
    errAt (cs!"E171: Missing :endif:    " ++ ends) q
  else pure ()
/-- go/vimlparser.go:377-381 -/
def checkMissingEndtry (st : PState) (ends : Str) (q : Pos) : Prog Unit :=
  if st.cur.head.isTry || st.cur.head.isCatch || st.cur.head.isFinally then
    errAt (cs!"E600: Missing :endtry:    " ++ ends) q
  else pure ()
/-- go/vimlparser.go:383-387 -/
def checkMissingEndwhile (st : PState) (ends : Str) (q : Pos) : Prog Unit :=
  if st.cur.head.isWhile then errAt (cs!"E170: Missing :endwhile:    " ++ ends) q else pure ()
/-- go/vimlparser.go:389-393 -/
def checkMissingEndfor (st : PState) (ends : Str) (q : Pos) : Prog Unit :=
  if st.cur.head.isFor then errAt (cs!"E170: Missing :endfor:    " ++ ends) q else pure ()

/-- `pop_context` in the middle of a command -/
def popCtx (st : PState) (e : Option EndNode) : Prog PState :=
  match st.pop e with
  | some s => pure s
  | none => .fail .crash

/-! ### Modifiers, ranges, patterns -/

/-- The if-else chain of go/vimlparser.go:452-534 as a table, in the same order: full name and
minimum length.  (`tab` is compared with `==` in Go, which is minimum length 3.) -/
def modifierTable : List (Str × Nat) := [
  (cs!"aboveleft", 3), (cs!"belowright", 3), (cs!"browse", 3), (cs!"botright", 2),
  (cs!"confirm", 4), (cs!"keepmarks", 3), (cs!"keepalt", 5), (cs!"keepjumps", 5),
  (cs!"keeppatterns", 5), (cs!"hide", 3), (cs!"lockmarks", 3), (cs!"leftabove", 5),
  (cs!"noautocmd", 3), (cs!"noswapfile", 3), (cs!"rightbelow", 6), (cs!"sandbox", 3),
  (cs!"silent", 3), (cs!"tab", 3), (cs!"topleft", 2), (cs!"unsilent", 3), (cs!"vertical", 4),
  (cs!"verbose", 4)]

/-- `viml_stridx(full, k) == 0 && len(k) >= min` for the first matching entry -/
def findModifier (k : Str) : Option Str :=
  (modifierTable.find? fun e => k.isPrefixOf e.1 && e.2 ≤ k.length).map (·.1)

/-- `parse_command_modifiers`, go/vimlparser.go:437-537 -/
def parseModifiers : Prog (List Modifier) :=
  loop (fun (ms : List Modifier) => do
    let s ← tell
    let d ← if is1 isdigit (← peekn 1) then do
        let d ← readDigit
        skipWhite
        pure d
      else pure []
    let k ← readAlpha
    let c ← peekn 1
    skipWhite
    match findModifier k with
    | none =>
      seekSet s
      pure (.inr ms)
    | some name =>
      if name = cs!"hide" then
        if endsStr c then pure (.inr ms)
        else pure (.inl (ms ++ [{ name := name }]))
      else if name = cs!"silent" then
        if c = cs!"!" then
          let _ ← get
          pure (.inl (ms ++ [{ name := name, bang := some 1 }]))
        else pure (.inl (ms ++ [{ name := name, bang := some 0 }]))
      else if name = cs!"tab" then
        if d ≠ [] then
          let n ← str2nr d
          pure (.inl (ms ++ [{ name := name, count := some n }]))
        else pure (.inl (ms ++ [{ name := name }]))
      else if name = cs!"verbose" then
        if d ≠ [] then
          let n ← str2nr d
          pure (.inl (ms ++ [{ name := name, count := some n }]))
        else pure (.inl (ms ++ [{ name := name, count := some 1 }]))
      else pure (.inl (ms ++ [{ name := name }]))) []

/-- `parse_pattern`, go/vimlparser.go:613-641: the pattern and the end delimiter (`""` if none). -/
def parsePattern (delim : Str) : Prog (Str × Str) :=
  loop (fun (st : Str × Int) => do
    let (pat, inb) := st
    let c ← getn 1
    if c = [] then pure (.inr (pat, []))
    else if c = delim ∧ inb = 0 then pure (.inr (pat, c))
    else if c = cs!"\\" then
      let d ← peekn 1
      if d = [] then errHere cs!"E682: Invalid search pattern or delimiter"
      else
        let _ ← getn 1
        pure (.inl (pat ++ c ++ d, inb))
    else if c = cs!"[" then pure (.inl (pat ++ c, inb + 1))
    else if c = cs!"]" then pure (.inl (pat ++ c, inb - 1))
    else pure (.inl (pat ++ c, inb))) ([], 0)

/-- `read_integer`, go/vimlparser.go:3473-3480 -/
def readInteger : Prog Str := do
  let c ← peekn 1
  if c = cs!"-" ∨ c = cs!"+" then
    let r ← getn 1
    let d ← readDigit
    pure (r ++ d)
  else readDigit

/-- Loop over `+N` / `-N` offsets of an address, go/vimlparser.go:581-591 -/
def rangeInts (tokens : List Str) : Prog (List Str) :=
  loop (fun (ts : List Str) => do
    skipWhite
    if (← peekn 1) = [] then pure (.inr ts)
    else
      let n ← readInteger
      if n = [] then pure (.inr ts) else pure (.inl (ts ++ [n]))) tokens

/-- One address atom, go/vimlparser.go:549-580; `none` when the code breaks out of the loop. -/
def rangeAtom (tokens : List Str) (c : Str) : Prog (Option (List Str)) := do
  if c = cs!"." ∨ c = cs!"$" then
    let t ← getn 1
    pure (some (tokens ++ [t]))
  else if c = cs!"'" then
    let _ ← getn 1
    let m ← getn 1
    if m = [] then pure none else pure (some (tokens ++ [cs!"'" ++ m]))
  else if c = cs!"/" ∨ c = cs!"?" then
    let _ ← getn 1
    let r ← parsePattern c
    pure (some (tokens ++ [r.1]))
  else if c = cs!"\\" then
    let m ← p 1
    if m = .ch '&' ∨ m = .ch '?' ∨ m = .ch '/' then
      seekCur 2
      pure (some (tokens ++ [cs!"\\" ++ m.str]))
    else errHere cs!"E10: \\\\ should be followed by /, ? or &"
  else if is1 isdigit c then
    let t ← readDigit
    pure (some (tokens ++ [t]))
  else pure (some tokens)

/-- Inner loop of `parse_range`, go/vimlparser.go:543-595 -/
def rangeInner (tokens : List Str) : Prog (List Str) :=
  loop (fun (ts : List Str) => do
    skipWhite
    let c ← peekn 1
    if c = [] then pure (.inr ts)
    else
      let r ← rangeAtom ts c
      match r with
      | none => pure (.inr ts)
      | some ts =>
        let ts ← rangeInts ts
        let x ← p 0
        if x ≠ .ch '/' ∧ x ≠ .ch '?' then pure (.inr ts) else pure (.inl ts)) tokens

/-- `parse_range`, go/vimlparser.go:540-610 -/
def parseRange : Prog (List Str) :=
  loop (fun (ts : List Str) => do
    let ts ← rangeInner ts
    let c ← peekn 1
    let ts ← if c = cs!"%" ∨ c = cs!"*" then do
        let t ← getn 1
        pure (ts ++ [t])
      else pure ts
    let c ← peekn 1
    if c = cs!";" ∨ c = cs!"," then
      let t ← getn 1
      pure (.inl (ts ++ [t]))
    else pure (.inr ts)) []

/-! ### Command lookup -/

/-- `\v^s%(c[^sr][^i][^p]|g|i[^mlg]|I|r[^e])`, go/vimlfunc.go:29, on `peekn(5)` -/
def isShortSubstitute : Str → Bool
  | 's' :: 'c' :: a :: b :: c :: _ => !(a == 's' || a == 'r') && b != 'i' && c != 'p'
  | 's' :: 'g' :: _ => true
  | 's' :: 'i' :: a :: _ => !(a == 'm' || a == 'l' || a == 'g')
  | 's' :: 'I' :: _ => true
  | 's' :: 'r' :: a :: _ => a != 'e'
  | _ => false

/-- `[@*!=><&~#]` on `peekn(1)` -/
def isPunctCmd : Str → Bool
  | [c] => (cs!"@*!=><&~#").contains c
  | _ => false

/-- `^d(elete|elet|ele|el|e)[lp]$`, go/vimlfunc.go:28 -/
def isDeleteLP (s : Str) : Bool :=
  [cs!"delete", cs!"delet", cs!"dele", cs!"del", cs!"de"].any fun b =>
    s == b ++ cs!"l" || s == b ++ cs!"p"

/-- `viml_stridx(x.name, name) == 0 && len(name) >= x.minlen` -/
def Cmd.matches (x : Cmd) (name : Str) : Bool := name.isPrefixOf x.name && x.minlen ≤ name.length

/-- Table part of `find_command`, go/vimlparser.go:840-860 -/
def lookupTable (neovim : Bool) (name : Str) : Option Cmd :=
  let cmd := builtinCommands.find? (·.matches name)
  if neovim then
    let cmd := match neovimAdditionalCommands.find? (·.matches name) with
      | some x => some x
      | none => cmd
    if neovimRemovedCommands.any (·.matches name) then none else cmd
  else cmd

/-- `^[A-Z]` -/
def startsUpper : Str → Bool
  | c :: _ => isUpperC c
  | [] => false

/-- The typed command name, go/vimlparser.go:813-833 -/
def readCmdName : Prog Str := do
  let c ← peekn 1
  if c = cs!"k" then
    let _ ← getn 1
    pure cs!"k"
  else if c = cs!"s" ∧ isShortSubstitute (← peekn 5) = true then
    let _ ← getn 1
    pure cs!"substitute"
  else if isPunctCmd c then
    let _ ← getn 1
    pure c
  else if (← peekn 2) = cs!"py" then readAlnum
  else
    let s ← tell
    let name ← readAlpha
    if name ≠ cs!"del" ∧ isDeleteLP name = true then
      seekSet s
      getn (name.length - 1)
    else pure name

/-- `find_command`, go/vimlparser.go:812-868.  The cache maps names to commands or `nil`. -/
def findCommand (neovim : Bool) (cache : List (Str × Option Cmd)) :
    Prog (Option Cmd × List (Str × Option Cmd)) := do
  let name ← readCmdName
  if name = [] then pure (none, cache)
  else match cache.lookup name with
  | some hit => pure (hit, cache)
  | none =>
    let cmd := lookupTable neovim name
    if (match cmd with | none => true | some c => c.name == cs!"Print") && startsUpper name then
      let more ← readAlnum
      let name := name ++ more
      let cmd : Option Cmd := some ⟨name, 0, [.USERCMD], cs!"parse_cmd_usercmd"⟩
      pure (cmd, (name, cmd) :: cache)
    else pure (cmd, (name, cmd) :: cache)

/-! ### Command prefixes: ++opt, +cmd -/

/-- `\bafter` at the end of a word character: the next character is not a word character. -/
def wordEnd (s : Str) : Bool :=
  match s with
  | [] => true
  | c :: _ => !iswordc c

/-- `^pre\b` where `pre` ends in a word character -/
def prefixWord (pre s : Str) : Bool := pre.isPrefixOf s && wordEnd (s.drop pre.length)

/-- `^pre\S` -/
def prefixNonspace (pre s : Str) : Bool :=
  pre.isPrefixOf s && (match s.drop pre.length with | [] => false | c :: _ => !isSpaceRe c)

/-- `^pre(dos|unix|mac)\b` -/
def prefixFf (pre s : Str) : Bool :=
  [cs!"dos", cs!"unix", cs!"mac"].any fun w => prefixWord (pre ++ w) s

/-- `^\+\+bad=(keep|drop|.)\b` -/
def prefixBad (s : Str) : Bool :=
  prefixWord cs!"++bad=keep" s || prefixWord cs!"++bad=drop" s ||
    ((cs!"++bad=").isPrefixOf s && (match s.drop 6 with
      | [] => false
      | [c] => iswordc c
      | c :: d :: _ => iswordc c != iswordc d))

/-- `parse_argopt`, go/vimlparser.go:877-917 -/
def parseArgopt (ea : ExArg) : Prog ExArg :=
  loop (fun (ea : ExArg) => do
    if ← pand (pIs 0 '+') (pIs 1 '+') then
      let s ← peekn 20
      if prefixWord cs!"++bin" s then
        let _ ← getn 5
        skipWhite
        pure (.inl { ea with forceBin := 1 })
      else if prefixWord cs!"++nobin" s then
        let _ ← getn 7
        skipWhite
        pure (.inl { ea with forceBin := 2 })
      else if prefixWord cs!"++edit" s then
        let _ ← getn 6
        skipWhite
        pure (.inl { ea with readEdit := 1 })
      else if prefixFf cs!"++ff=" s then
        let _ ← getn 5
        let v ← readAlpha
        skipWhite
        pure (.inl { ea with forceFf := v })
      else if prefixFf cs!"++fileformat=" s then
        let _ ← getn 13
        let v ← readAlpha
        skipWhite
        pure (.inl { ea with forceFf := v })
      else if prefixNonspace cs!"++enc=" s then
        let _ ← getn 6
        let v ← readNonwhite
        skipWhite
        pure (.inl { ea with forceEnc := v })
      else if prefixNonspace cs!"++encoding=" s then
        let _ ← getn 11
        let v ← readNonwhite
        skipWhite
        pure (.inl { ea with forceEnc := v })
      else if prefixBad s then
        let _ ← getn 6
        let v ← if (cs!"++bad=keep").isPrefixOf s || (cs!"++bad=drop").isPrefixOf s then getn 4
          else getn 1
        skipWhite
        pure (.inl { ea with badChar := v })
      else if (cs!"++").isPrefixOf s then errHere cs!"E474: Invalid Argument"
      else pure (.inr ea)
    else pure (.inr ea)) ea

/-- `read_cmdarg`, go/vimlparser.go:932-946 -/
def readCmdarg : Prog Str :=
  loop (fun (r : Str) => do
    let c ← peekn 1
    if c = [] ∨ is1 iswhite c = true then pure (.inr r)
    else
      let _ ← getn 1
      if c = cs!"\\" then
        let d ← getn 1
        pure (.inl (r ++ d))
      else pure (.inl (r ++ c))) []

/-- `parse_argcmd`, go/vimlparser.go:921-930 -/
def parseArgcmd (ea : ExArg) : Prog ExArg := do
  if (← peekn 1) = cs!"+" then
    let _ ← getn 1
    if (← peekn 1) = cs!" " then pure { ea with doEcmdCmd := cs!"$" }
    else
      let v ← readCmdarg
      pure { ea with doEcmdCmd := v }
  else pure ea

/-! ### Comments and line ends -/

/-- `parse_comment`, go/vimlparser.go:948-958 -/
def parseComment (st : PState) : Prog PState := do
  let q ← getpos
  let c ← get
  if c ≠ .ch '"' then errAt (cs!"unexpected character: " ++ c.str) q
  else
    let s ← getline
    pure (st.add (.comment q s))

/-- `parse_trail`, go/vimlparser.go:960-975 -/
def parseTrail (st : PState) : Prog PState := do
  skipWhite
  let c ← peek
  if c = .eof then pure st
  else if c = .eol then
    let _ ← get
    pure st
  else if c = .ch '|' then
    let _ ← get
    pure st
  else if c = .ch '"' then
    let st ← parseComment st
    let _ ← get
    pure st
  else errHere (cs!"E488: Trailing characters: " ++ c.str)

/-! ### Commands kept as text -/

/-- `parse_cmd_modifier_range`, go/vimlparser.go:978-984 -/
def cmdModifierRange (ea : ExArg) (st : PState) : Prog PState := do
  let q ← getpos
  let s ← getstr ea.linepos q
  pure (st.add (.excmd ea.cmdpos ea s))

/-- `skip_vimgrep_pat`, go/vimlparser.go:1066-1083 -/
def skipVimgrepPat : Prog Unit := do
  let c ← peekn 1
  if c = [] then pure ()
  else if is1 iswordc c then
    let _ ← readNonwhite
    pure ()
  else
    let c ← getn 1
    let r ← parsePattern c
    if c ≠ r.2 then pure ()
    else
      loop (fun (_ : Unit) => do
        if ← por (pIs 0 'g') (pIs 0 'j') then
          let _ ← getn 1
          pure (.inl ())
        else pure (.inr ())) ()

def isVimgrep (name : Str) : Bool :=
  name == cs!"vimgrep" || name == cs!"vimgrepadd" || name == cs!"lvimgrep" || name == cs!"lvimgrepadd"

/-- State of the loop of `separate_nextcmd`: previous character, `end`, `nospend`. -/
structure SepSt where
  pc : Str
  en : Pos
  nosp : Pos
deriving Repr

/-- Does `c` end the command? go/vimlparser.go:1046.  `self.reader.getpos() != self.ea.argpos`
compares two freshly allocated pointers and is always true. -/
def sepStop (ea : ExArg) (cmd : Cmd) (pc : Str) (c : Char) (q : Pos) : Bool :=
  c == '|' || c == '\n' ||
    (c == '"' && !cmd.has .NOTRLCOM &&
      (cmd.name != cs!"redir" || q.i != (ea.argpos.getD default).i + 1 || pc != cs!"@"))

/-- `separate_nextcmd`, go/vimlparser.go:1013-1063 -/
def separateNextcmd (ea : ExArg) (cmd : Cmd) : Prog Pos := do
  (if isVimgrep cmd.name then skipVimgrepPat else pure ())
  let q0 ← getpos
  let st ← loop (fun (st : SepSt) => do
    let q ← getpos
    let nosp := if is1 iswhite st.pc then st.nosp else q
    let c ← peek
    match c with
    | .eof => pure (.inr (⟨st.pc, q, nosp⟩ : SepSt))
    | .eol => pure (.inr (⟨st.pc, q, nosp⟩ : SepSt))
    | .ch ch =>
      if ch = '\x16' then
        let _ ← get
        let q ← getpos
        let d ← peek
        match d with
        | .eof => pure (.inr (⟨st.pc, q, q⟩ : SepSt))
        | .eol => pure (.inr (⟨st.pc, q, q⟩ : SepSt))
        | .ch dh =>
          let _ ← get
          pure (.inl (⟨[dh], q, q⟩ : SepSt))
      else if (← peekn 2) = cs!"`=" ∧ (cmd.has .XFILE || cmd.has .FILES || cmd.has .FILE1) = true then
        let _ ← getn 2
        let _ ← parseExpr1
        let d ← peekn 1
        if d ≠ cs!"`" then errHere (cs!"unexpected character: " ++ d)
        else
          let _ ← getn 1
          pure (.inl (⟨d, q, nosp⟩ : SepSt))
      else if sepStop ea cmd st.pc ch q then
        if st.pc = cs!"\\" then
          let _ ← get
          pure (.inl (⟨[ch], q, nosp⟩ : SepSt))
        else pure (.inr (⟨st.pc, q, nosp⟩ : SepSt))
      else
        let _ ← get
        pure (.inl (⟨[ch], q, nosp⟩ : SepSt))) (⟨[], q0, q0⟩ : SepSt)
  if cmd.has .NOTRLCOM then pure st.en else pure st.nosp

/-- `parse_cmd_common`, go/vimlparser.go:987-1011.  The two `for` loops step to the end of the line;
afterwards `end` is the position reached. -/
def cmdCommon (ea : ExArg) (cmd : Cmd) (st : PState) : Prog PState := do
  let e ← if cmd.has .TRLBAR && !ea.usefilter then separateNextcmd ea cmd
    else do
      let _ ← getline
      getpos
  let s ← getstr ea.linepos e
  pure (st.add (.excmd ea.cmdpos ea s))

/-- `viml_join(lines, "\n")`, go/vimlfunc.go:109-116 -/
def joinLines : List Str → Str
  | [] => []
  | [l] => l
  | l :: ls => l ++ cs!"\n" ++ joinLines ls

/-- Lines up to and including the end marker, or to the end of the file,
go/vimlparser.go:1090-1100 and 1145-1155 -/
def linesUntil (m : Str) (lines : List Str) : Prog (List Str) :=
  loop (fun (ls : List Str) => do
    if (← peek) = .eof then pure (.inr ls)
    else
      let line ← getline
      let ls := ls ++ [line]
      if line = m then pure (.inr ls)
      else
        let _ ← get
        pure (.inl ls)) lines

/-- `parse_cmd_append`, `parse_cmd_insert`, go/vimlparser.go:1085-1110 -/
def cmdAppend (ea : ExArg) (st : PState) : Prog PState := do
  setpos ea.linepos
  let cmdline ← readline
  let lines ← linesUntil cs!"." [cmdline]
  pure (st.add (.excmd ea.cmdpos ea (joinLines lines)))

/-- `parse_cmd_loadkeymap`, go/vimlparser.go:1112-1128 -/
def cmdLoadkeymap (ea : ExArg) (st : PState) : Prog PState := do
  setpos ea.linepos
  let cmdline ← readline
  let lines ← loop (fun (ls : List Str) => do
    if (← peek) = .eof then pure (.inr ls)
    else
      let line ← readline
      pure (.inl (ls ++ [line]))) [cmdline]
  pure (st.add (.excmd ea.cmdpos ea (joinLines lines)))

/-- `parse_cmd_lua` and the other script interfaces, go/vimlparser.go:1130-1189 -/
def cmdLua (ea : ExArg) (st : PState) : Prog PState := do
  skipWhite
  if (← peekn 2) = cs!"<<" then
    let _ ← getn 2
    skipWhite
    let m ← readline
    let m := if m = [] then cs!"." else m
    setpos ea.linepos
    let cmdline ← getline
    let _ ← get
    let lines ← linesUntil m [cmdline]
    pure (st.add (.excmd ea.cmdpos ea (joinLines lines)))
  else
    setpos ea.linepos
    let cmdline ← getline
    pure (st.add (.excmd ea.cmdpos ea (joinLines [cmdline])))

/-- `parse_cmd_finish`, go/vimlparser.go:1191-1196 -/
def cmdFinish (ea : ExArg) (cmd : Cmd) (st : PState) : Prog PState := do
  let st ← cmdCommon ea cmd st
  if st.cur.head.isToplevel then
    seekEnd
    pure st
  else pure st

/-- `parse_wincmd`, go/vimlparser.go:1937-1958 -/
def cmdWincmd (ea : ExArg) (st : PState) : Prog PState := do
  let c ← getn 1
  if c = [] then errHere cs!"E471: Argument required"
  else
    let bad ← if c = cs!"g" ∨ c = ['\x07'] then do
        let c2 ← getn 1
        pure (c2 == [] || is1 iswhite c2)
      else pure false
    if bad then errHere cs!"E474: Invalid Argument"
    else
      let e ← getpos
      skipWhite
      if !endsSym (← peek) then errHere cs!"E474: Invalid Argument"
      else
        let s ← getstr ea.linepos e
        pure (st.add (.excmd ea.cmdpos ea s))

/-- `parse_cmd_syntax`, go/vimlparser.go:1961-1983 -/
def cmdSyntax (ea : ExArg) (st : PState) : Prog PState := do
  let e ← loop (fun (_ : Unit) => do
    let q ← getpos
    let c ← peek
    if c = .ch '/' ∨ c = .ch '\'' ∨ c = .ch '"' then
      let _ ← getn 1
      let _ ← parsePattern c.str
      let _ ← getn 1
      pure (.inl ())
    else if c = .ch '=' then
      let _ ← getn 1
      let _ ← parsePattern cs!" "
      let _ ← getn 1
      pure (.inl ())
    else if endsSym c then pure (.inr q)
    else
      let _ ← getn 1
      pure (.inl ())) ()
  let s ← getstr ea.linepos e
  pure (st.add (.excmd ea.cmdpos ea s))

/-! ### Expressions and left-hand sides -/

/-- `parse_exprlist`, go/vimlparser.go:1790-1802 -/
def parseExprlist : Prog (List VExpr) :=
  loop (fun (l : List VExpr) => do
    skipWhite
    let c ← peek
    if c ≠ .ch '"' ∧ endsSym c = true then pure (.inr l)
    else
      let e ← parseExpr1
      pure (.inl (l ++ [e]))) []

/-- Node types accepted by `parse_lvalue_func`, go/vimlparser.go:1807 -/
def isLvalueFunc : VExpr → Bool
  | .atom _ .identifier _ | .atom _ .option _ | .atom _ .env _ | .atom _ .reg _ => true
  | .curlyname .. | .subscript .. | .dot .. => true
  | _ => false

/-- `parse_lvalue_func`, go/vimlparser.go:1804-1811 -/
def parseLvalueFunc : Prog VExpr := do
  let e ← lv8
  if isLvalueFunc e then pure e else errAt cs!"Invalid Expression" e.pos

/-- `node.type_ == NODE_IDENTIFIER && !isvarname(node.value)` -/
def badVarname : VExpr → Option Str
  | .atom _ .identifier v => if isvarname v then none else some v
  | _ => none

/-- Node types accepted by `parse_lvalue`, go/vimlparser.go:1822 -/
def isLvalue : VExpr → Bool
  | .slice .. => true
  | e => isLvalueFunc e

/-- `parse_lvalue`, go/vimlparser.go:1814-1826 -/
def parseLvalue : Prog VExpr := do
  let e ← lv8
  match badVarname e with
  | some v => errAt (cs!"E461: Illegal variable name: " ++ v) e.pos
  | none => if isLvalue e then pure e else errAt cs!"Invalid Expression" e.pos

/-- `parse_constlvalue`, go/vimlparser.go:1829-1849 -/
def parseConstlvalue : Prog VExpr := do
  let e ← lv8
  match badVarname e with
  | some v => errAt (cs!"E461: Illegal variable name: " ++ v) e.pos
  | none =>
    match e with
    | .atom _ .identifier _ => pure e
    | .curlyname .. => pure e
    | .subscript .. => errAt cs!"E996: Cannot lock a list or dict" e.pos
    | .slice .. => errAt cs!"E996: Cannot lock a list or dict" e.pos
    | .dot .. => errAt cs!"E996: Cannot lock a list or dict" e.pos
    | .atom _ .option _ => errAt cs!"E996: Cannot lock an option" e.pos
    | .atom _ .env _ => errAt cs!"E996: Cannot lock an environment variable" e.pos
    | .atom _ .reg _ => errAt cs!"E996: Cannot lock a register" e.pos
    | _ => errAt cs!"Invalid Expression" e.pos

/-- `parse_lvaluelist`, go/vimlparser.go:1851-1864.  The first element is parsed as an expression. -/
def parseLvaluelist : Prog (List VExpr) := do
  let e ← parseExpr1
  loop (fun (l : List VExpr) => do
    skipWhite
    if endsSym (← peek) then pure (.inr l)
    else
      let e ← parseLvalue
      pure (.inl (l ++ [e]))) [e]

/-- `parse_letlhs`, go/vimlparser.go:1867-1897, and `parse_constlhs`, go/vimlparser.go:1900-1930,
which differ only in the parser for a single left-hand side. -/
def parseLhs (single : Prog VExpr) : Prog Lhs := do
  let t ← tokpeek
  if t.ty = .sqopen then
    let _ ← tokget
    loop (fun (l : List VExpr) => do
      let e ← parseLvalue
      let l := l ++ [e]
      let t ← tokget
      if t.ty = .sqclose then pure (.inr { list := l })
      else if t.ty = .comma then pure (.inl l)
      else if t.ty = .semicolon then
        let r ← parseLvalue
        let t ← tokget
        if t.ty = .sqclose then pure (.inr { list := l, rest := some r })
        else errAt (cs!"E475 Invalid argument: " ++ t.value) t.pos
      else errAt (cs!"E475 Invalid argument: " ++ t.value) t.pos) []
  else
    let e ← single
    pure { left := some e }

def parseLetlhs : Prog Lhs := parseLhs parseLvalue
def parseConstlhs : Prog Lhs := parseLhs parseConstlvalue

/-! ### Functions -/

/-- Parameters of a function definition so far. -/
structure ParamSt where
  rlist : List (Pos × Str) := []
  defaults : List VExpr := []
  named : List Str := []
deriving Repr, Inhabited

/-- Parameter list after `(`, go/vimlparser.go:1238-1291 -/
def parseParams : Prog ParamSt := do
  let t ← tokpeek
  if t.ty = .pclose then
    let _ ← tokget
    pure {}
  else
    loop (fun (st : ParamSt) => do
      let t ← tokget
      if t.ty = .identifier then
        if !isargname t.value || t.value == cs!"firstline" || t.value == cs!"lastline" then
          errAt (cs!"E125: Illegal argument: " ++ t.value) t.pos
        else if st.named.contains t.value then
          errAt (cs!"E853: Duplicate argument name: " ++ t.value) t.pos
        else
          let named := t.value :: st.named
          let rlist := st.rlist ++ [(t.pos, t.value)]
          let t1 ← tokpeek
          let defaults ←
            if t1.ty = .eq then do
              let _ ← tokget
              let e ← parseExpr1
              pure (st.defaults ++ [e])
            else if st.defaults.length > 0 then
              errAt cs!"E989: Non-default argument follows default argument" t.pos
            else pure st.defaults
          if ← pand (pSat 0 iswhite) (do return (← tokpeek).ty = .comma) then
            errHere cs!"E475: Invalid argument: White space is not allowed before comma"
          else
            let t2 ← tokget
            if t2.ty = .comma then
              let t3 ← tokpeek
              if t3.ty = .pclose then
                let _ ← tokget
                pure (.inr ⟨rlist, defaults, named⟩)
              else pure (.inl ⟨rlist, defaults, named⟩)
            else if t2.ty = .pclose then pure (.inr ⟨rlist, defaults, named⟩)
            else unexpected t2
      else if t.ty = .dotdotdot then
        let rlist := st.rlist ++ [(t.pos, t.value)]
        let t2 ← tokget
        if t2.ty = .pclose then pure (.inr ⟨rlist, st.defaults, st.named⟩)
        else unexpected t2
      else unexpected t) {}

/-- Function attributes, go/vimlparser.go:1296-1312 -/
def parseFuncAttrs : Prog FuncAttr :=
  loop (fun (a : FuncAttr) => do
    skipWhite
    let q ← getpos
    let key ← readAlpha
    if key = [] then pure (.inr a)
    else if key = cs!"range" then pure (.inl { a with range := true })
    else if key = cs!"abort" then pure (.inl { a with abort := true })
    else if key = cs!"dict" then pure (.inl { a with dict := true })
    else if key = cs!"closure" then pure (.inl { a with closure := true })
    else errAt (cs!"unexpected token: " ++ key) q) {}

/-- The check on a plain function name, go/vimlparser.go:1219-1225: `some` is the E128 error text;
the outer `none` is the index panic `ss[0]` on an empty name. -/
def checkFuncName : VExpr → Option (Option Str)
  | .atom _ .identifier [] => none
  | .atom _ .identifier (c :: cs) =>
    if c != '<' && c != '_' && !isupper c && !(c :: cs).contains ':' && !(c :: cs).contains '#' then
      some (some (cs!"E128: Function name must start with a capital or contain a colon: " ++ c :: cs))
    else some none
  | _ => some none

/-- `parse_cmd_function`, go/vimlparser.go:1203-1316 -/
def cmdFunction (ea : ExArg) (cmd : Cmd) (st : PState) : Prog PState := do
  let s ← tell
  skipWhite
  if endsSym (← peek) then
    seekSet s
    cmdCommon ea cmd st
  else if (← peekn 1) = cs!"/" then
    seekSet s
    cmdCommon ea cmd st
  else
    let left ← parseLvalueFunc
    skipWhite
    match checkFuncName left with
    | none => .fail .crash
    | some (some msg) => errAt msg left.pos
    | some none =>
      if (← peekn 1) ≠ cs!"(" then
        seekSet s
        cmdCommon ea cmd st
      else
        let _ ← getn 1
        let ps ← parseParams
        let attr ← parseFuncAttrs
        pure (st.push (.function ea.cmdpos ea left ps.rlist ps.defaults attr))

/-- `parse_cmd_endfunction`, go/vimlparser.go:1318-1332 -/
def cmdEndfunction (ea : ExArg) (st : PState) : Prog PState := do
  checkMissingEndif st cs!"ENDFUNCTION" ea.cmdpos
  checkMissingEndtry st cs!"ENDFUNCTION" ea.cmdpos
  checkMissingEndwhile st cs!"ENDFUNCTION" ea.cmdpos
  checkMissingEndfor st cs!"ENDFUNCTION" ea.cmdpos
  if !st.cur.head.isFunction then errAt cs!"E193: :endfunction not inside a function" ea.cmdpos
  else
    let _ ← getline
    popCtx st (some ⟨ea.cmdpos, ea⟩)

/-- `parse_cmd_delfunction`, go/vimlparser.go:1334-1340 -/
def cmdDelfunction (ea : ExArg) (st : PState) : Prog PState := do
  let l ← parseLvalueFunc
  pure (st.add (.delfunction ea.cmdpos ea l))

/-- `parse_cmd_return`, go/vimlparser.go:1342-1356 -/
def cmdReturn (ea : ExArg) (st : PState) : Prog PState := do
  if !st.inContext Head.isFunction then errAt cs!"E133: :return not inside a function" ea.cmdpos
  else
    skipWhite
    let c ← peek
    if c = .ch '"' ∨ endsSym c = false then
      let e ← parseExpr1
      pure (st.add (.return_ ea.cmdpos ea (some e)))
    else pure (st.add (.return_ ea.cmdpos ea none))

/-- `node.left.type_ == NODE_CALL` -/
def isCall : VExpr → Bool
  | .call .. => true
  | _ => false

/-- `parse_cmd_call`, go/vimlparser.go:1358-1372 -/
def cmdCall (ea : ExArg) (st : PState) : Prog PState := do
  skipWhite
  let c ← peek
  if endsSym c then errHere cs!"E471: Argument required"
  else
    let e ← parseExpr1
    if !isCall e then errAt cs!"Not an function call" e.pos
    else pure (st.add (.excall ea.cmdpos ea e))

/-! ### :let and friends -/

/-- Flags and end marker of a heredoc, go/vimlparser.go:1379-1397; `none` if there is no marker. -/
def heredocHead : Prog (List (Pos × Str) × Str) :=
  loop (fun (rl : List (Pos × Str)) => do
    skipWhite
    let q ← getpos
    let key ← readWord
    match key with
    | [] => pure (.inr (rl, []))
    | c :: _ => if !islower c then pure (.inr (rl, key)) else pure (.inl (rl ++ [(q, key)]))) []

/-- Lines of a heredoc, go/vimlparser.go:1399-1415 -/
def heredocBody (op : Str) : Prog (List (Pos × Str)) :=
  loop (fun (body : List (Pos × Str)) => do
    if (← peek) = .eof then errHere (cs!"E990: Missing end marker '" ++ op ++ cs!"'")
    else
      let q ← getpos
      let line ← getline
      if line = op then pure (.inr body)
      else
        let _ ← get
        pure (.inl (body ++ [(q, line)]))) []

/-- `parse_heredoc`, go/vimlparser.go:1374-1416.  A trailing comment on the `=<<` line is added to
the context before the `:let` node. -/
def parseHeredoc (ea : ExArg) (st : PState) : Prog (VExpr × PState) := do
  let (rl, op) ← heredocHead
  if op = [] then errHere cs!"E172: Missing marker"
  else
    let st ← parseTrail st
    let body ← heredocBody op
    pure (.heredoc ea.cmdpos rl op body, st)

/-- Assignment operators with an expression on the right, go/vimlparser.go:1452 -/
def isOpAssign (s2 : Str) : Bool :=
  s2 == cs!"+=" || s2 == cs!"-=" || s2 == cs!".=" || s2 == cs!"..=" || s2 == cs!"*=" ||
    s2 == cs!"/=" || s2 == cs!"%="

/-- `parse_cmd_let`, go/vimlparser.go:1418-1470 -/
def cmdLet (ea : ExArg) (cmd : Cmd) (st : PState) : Prog PState := do
  let s ← tell
  skipWhite
  if endsSym (← peek) then
    seekSet s
    cmdCommon ea cmd st
  else
    let lhs ← parseLetlhs
    skipWhite
    let s1 ← peekn 1
    let s2 ← peekn 2
    let s2 ← if s2 = cs!".." ∨ s2 = cs!"=<" then peekn 3 else pure s2
    if (endsStr s1 || (!isOpAssign s2 && s2 != cs!"=<<" && s1 != cs!"=")) = true then
      seekSet s
      cmdCommon ea cmd st
    else if isOpAssign s2 then
      let _ ← getn s2.length
      let e ← parseExpr1
      pure (st.add (.let_ ea.cmdpos ea s2 lhs e))
    else if s2 = cs!"=<<" then
      let _ ← getn s2.length
      skipWhite
      let (e, st) ← parseHeredoc ea st
      pure (st.add (.let_ ea.cmdpos ea s2 lhs e))
    else if s1 = cs!"=" then
      let _ ← getn 1
      let e ← parseExpr1
      pure (st.add (.let_ ea.cmdpos ea s1 lhs e))
    else .fail .crash

/-- `parse_cmd_const`, go/vimlparser.go:1472-1501 -/
def cmdConst (ea : ExArg) (cmd : Cmd) (st : PState) : Prog PState := do
  let s ← tell
  skipWhite
  if endsSym (← peek) then
    seekSet s
    cmdCommon ea cmd st
  else
    let lhs ← parseConstlhs
    skipWhite
    let s1 ← peekn 1
    if endsStr s1 = true ∨ s1 ≠ cs!"=" then
      seekSet s
      cmdCommon ea cmd st
    else
      let _ ← getn 1
      let e ← parseExpr1
      pure (st.add (.const_ ea.cmdpos ea s1 lhs e))

/-- `parse_cmd_unlet`, go/vimlparser.go:1503-1509 -/
def cmdUnlet (ea : ExArg) (st : PState) : Prog PState := do
  let l ← parseLvaluelist
  pure (st.add (.unlet ea.cmdpos ea l))

/-- Optional depth of `:lockvar`, go/vimlparser.go:1517-1520 -/
def parseDepth : Prog Nat := do
  skipWhite
  if is1 isdigit (← peekn 1) then
    let d ← readDigit
    str2nr d
  else pure 0

/-- `parse_cmd_lockvar`, go/vimlparser.go:1511-1523 -/
def cmdLockvar (ea : ExArg) (st : PState) : Prog PState := do
  let d ← parseDepth
  let l ← parseLvaluelist
  pure (st.add (.lockvar ea.cmdpos ea d l))

/-- `parse_cmd_unlockvar`, go/vimlparser.go:1525-1537 -/
def cmdUnlockvar (ea : ExArg) (st : PState) : Prog PState := do
  let d ← parseDepth
  let l ← parseLvaluelist
  pure (st.add (.unlockvar ea.cmdpos ea d l))

/-! ### Blocks -/

/-- `parse_cmd_if`, go/vimlparser.go:1539-1546 -/
def cmdIf (ea : ExArg) (st : PState) : Prog PState := do
  let e ← parseExpr1
  pure (st.push (.if_ ea.cmdpos ea e))

/-- `parse_cmd_elseif`, go/vimlparser.go:1548-1561 -/
def cmdElseif (ea : ExArg) (st : PState) : Prog PState := do
  if !st.cur.head.isIf && !st.cur.head.isElseif then
    errAt cs!"E582: :elseif without :if" ea.cmdpos
  else
    let st ← if !st.cur.head.isIf then popCtx st none else pure st
    let e ← parseExpr1
    pure (st.push (.elseif ea.cmdpos ea e))

/-- `parse_cmd_else`, go/vimlparser.go:1563-1575 -/
def cmdElse (ea : ExArg) (st : PState) : Prog PState := do
  if !st.cur.head.isIf && !st.cur.head.isElseif then
    errAt cs!"E581: :else without :if" ea.cmdpos
  else
    let st ← if !st.cur.head.isIf then popCtx st none else pure st
    pure (st.push (.else_ ea.cmdpos ea))

/-- `parse_cmd_endif`, go/vimlparser.go:1577-1589 -/
def cmdEndif (ea : ExArg) (st : PState) : Prog PState := do
  if !st.cur.head.isIf && !st.cur.head.isElseif && !st.cur.head.isElse then
    errAt cs!"E580: :endif without :if" ea.cmdpos
  else
    let st ← if !st.cur.head.isIf then popCtx st none else pure st
    popCtx st (some ⟨ea.cmdpos, ea⟩)

/-- `parse_cmd_while`, go/vimlparser.go:1591-1599 -/
def cmdWhile (ea : ExArg) (st : PState) : Prog PState := do
  let e ← parseExpr1
  pure (st.push (.while_ ea.cmdpos ea e))

/-- `parse_cmd_endwhile`, go/vimlparser.go:1601-1610 -/
def cmdEndwhile (ea : ExArg) (st : PState) : Prog PState := do
  if !st.cur.head.isWhile then errAt cs!"E588: :endwhile without :while" ea.cmdpos
  else popCtx st (some ⟨ea.cmdpos, ea⟩)

/-- `parse_cmd_for`, go/vimlparser.go:1612-1630 -/
def cmdFor (ea : ExArg) (st : PState) : Prog PState := do
  let lhs ← parseLetlhs
  skipWhite
  let q ← getpos
  let w ← readAlpha
  if w ≠ cs!"in" then errAt cs!"Missing \"in\" after :for" q
  else
    let e ← parseExpr1
    pure (st.push (.for_ ea.cmdpos ea lhs e))

/-- `parse_cmd_endfor`, go/vimlparser.go:1632-1641 -/
def cmdEndfor (ea : ExArg) (st : PState) : Prog PState := do
  if !st.cur.head.isFor then errAt cs!"E588: :endfor without :for" ea.cmdpos
  else popCtx st (some ⟨ea.cmdpos, ea⟩)

/-- `parse_cmd_continue`, go/vimlparser.go:1643-1651 -/
def cmdContinue (ea : ExArg) (st : PState) : Prog PState := do
  if !st.inContext Head.isWhile && !st.inContext Head.isFor then
    errAt cs!"E586: :continue without :while or :for" ea.cmdpos
  else pure (st.add (.continue_ ea.cmdpos ea))

/-- `parse_cmd_break`, go/vimlparser.go:1653-1661 -/
def cmdBreak (ea : ExArg) (st : PState) : Prog PState := do
  if !st.inContext Head.isWhile && !st.inContext Head.isFor then
    errAt cs!"E587: :break without :while or :for" ea.cmdpos
  else pure (st.add (.break_ ea.cmdpos ea))

/-- `parse_cmd_try`, go/vimlparser.go:1663-1669 -/
def cmdTry (ea : ExArg) (st : PState) : Prog PState := pure (st.push (.try_ ea.cmdpos ea))

/-- `parse_cmd_catch`, go/vimlparser.go:1671-1689 -/
def cmdCatch (ea : ExArg) (st : PState) : Prog PState := do
  if st.cur.head.isFinally then errAt cs!"E604: :catch after :finally" ea.cmdpos
  else if !st.cur.head.isTry && !st.cur.head.isCatch then
    errAt cs!"E603: :catch without :try" ea.cmdpos
  else
    let st ← if !st.cur.head.isTry then popCtx st none else pure st
    skipWhite
    if !endsSym (← peek) then
      let c ← get
      let r ← parsePattern c.str
      pure (st.push (.catch_ ea.cmdpos ea r.1))
    else pure (st.push (.catch_ ea.cmdpos ea []))

/-- `parse_cmd_finally`, go/vimlparser.go:1691-1703 -/
def cmdFinally (ea : ExArg) (st : PState) : Prog PState := do
  if !st.cur.head.isTry && !st.cur.head.isCatch then
    errAt cs!"E606: :finally without :try" ea.cmdpos
  else
    let st ← if !st.cur.head.isTry then popCtx st none else pure st
    pure (st.push (.finally_ ea.cmdpos ea))

/-- `parse_cmd_endtry`, go/vimlparser.go:1705-1717 -/
def cmdEndtry (ea : ExArg) (st : PState) : Prog PState := do
  if !st.cur.head.isTry && !st.cur.head.isCatch && !st.cur.head.isFinally then
    errAt cs!"E602: :endtry without :try" ea.cmdpos
  else
    let st ← if !st.cur.head.isTry then popCtx st none else pure st
    popCtx st (some ⟨ea.cmdpos, ea⟩)

/-- `parse_cmd_throw`, go/vimlparser.go:1719-1725 -/
def cmdThrow (ea : ExArg) (st : PState) : Prog PState := do
  let e ← parseExpr1
  pure (st.add (.throw ea.cmdpos ea e))

/-- `parse_cmd_eval`, go/vimlparser.go:1727-1733 -/
def cmdEval (ea : ExArg) (st : PState) : Prog PState := do
  let e ← parseExpr1
  pure (st.add (.eval ea.cmdpos ea e))

/-- `parse_cmd_echo`, `echon`, `echomsg`, `echoerr`, go/vimlparser.go:1735-1749, 1762-1776 -/
def cmdEcho (ty : EchoTy) (ea : ExArg) (st : PState) : Prog PState := do
  let l ← parseExprlist
  pure (st.add (.echo ty ea.cmdpos ea l))

/-- `parse_cmd_echohl`, go/vimlparser.go:1751-1760 -/
def cmdEchohl (ea : ExArg) (st : PState) : Prog PState := do
  let s ← loop (fun (s : Str) => do
    if endsSym (← peek) then pure (.inr s)
    else
      let c ← get
      pure (.inl (s ++ c.str))) []
  pure (st.add (.echohl ea.cmdpos ea s))

/-- `parse_cmd_execute`, go/vimlparser.go:1778-1784 -/
def cmdExecute (ea : ExArg) (st : PState) : Prog PState := do
  let l ← parseExprlist
  pure (st.add (.execute ea.cmdpos ea l))

/-! ### Dispatch -/

/-- The branches of `_parse_command`, go/vimlparser.go:710-810. -/
inductive Handler
  | append | break_ | call | catch_ | common | continue_ | delfunction | echo | echoerr | echohl
  | echomsg | echon | else_ | elseif | endfor | endfunction | endif | endtry | endwhile | execute
  | finally_ | finish | for_ | function | if_ | let_ | const_ | loadkeymap | lockvar
  | lua | modifierRange | return_ | throw | eval | try_ | unlet | unlockvar | while_ | wincmd
  | syntax
deriving DecidableEq, Repr, Inhabited

/-- String dispatch of `_parse_command`, go/vimlparser.go:710-810, in order.  `none` is the final
`else` branch, which panics (`viml_string` is not implemented). -/
def handlerTable : List (Str × Handler) := [
  (cs!"parse_cmd_append", .append), (cs!"parse_cmd_break", .break_), (cs!"parse_cmd_call", .call),
  (cs!"parse_cmd_catch", .catch_), (cs!"parse_cmd_common", .common),
  (cs!"parse_cmd_continue", .continue_), (cs!"parse_cmd_delfunction", .delfunction),
  (cs!"parse_cmd_echo", .echo), (cs!"parse_cmd_echoerr", .echoerr), (cs!"parse_cmd_echohl", .echohl),
  (cs!"parse_cmd_echomsg", .echomsg), (cs!"parse_cmd_echon", .echon), (cs!"parse_cmd_else", .else_),
  (cs!"parse_cmd_elseif", .elseif), (cs!"parse_cmd_endfor", .endfor),
  (cs!"parse_cmd_endfunction", .endfunction), (cs!"parse_cmd_endif", .endif),
  (cs!"parse_cmd_endtry", .endtry), (cs!"parse_cmd_endwhile", .endwhile),
  (cs!"parse_cmd_execute", .execute), (cs!"parse_cmd_finally", .finally_),
  (cs!"parse_cmd_finish", .finish), (cs!"parse_cmd_for", .for_),
  (cs!"parse_cmd_function", .function), (cs!"parse_cmd_if", .if_),
  -- parse_cmd_insert calls parse_cmd_append (go/vimlparser.go:1108-1110)
  (cs!"parse_cmd_insert", .append), (cs!"parse_cmd_let", .let_), (cs!"parse_cmd_const", .const_),
  (cs!"parse_cmd_loadkeymap", .loadkeymap), (cs!"parse_cmd_lockvar", .lockvar),
  -- the other script interfaces call parse_cmd_lua (go/vimlparser.go:1167-1189)
  (cs!"parse_cmd_lua", .lua), (cs!"parse_cmd_modifier_range", .modifierRange),
  (cs!"parse_cmd_mzscheme", .lua), (cs!"parse_cmd_perl", .lua), (cs!"parse_cmd_python", .lua),
  (cs!"parse_cmd_python3", .lua), (cs!"parse_cmd_return", .return_), (cs!"parse_cmd_ruby", .lua),
  (cs!"parse_cmd_tcl", .lua), (cs!"parse_cmd_throw", .throw), (cs!"parse_cmd_eval", .eval),
  (cs!"parse_cmd_try", .try_), (cs!"parse_cmd_unlet", .unlet),
  (cs!"parse_cmd_unlockvar", .unlockvar),
  -- parse_cmd_usercmd calls parse_cmd_common (go/vimlparser.go:1199-1201)
  (cs!"parse_cmd_usercmd", .common), (cs!"parse_cmd_while", .while_), (cs!"parse_wincmd", .wincmd),
  (cs!"parse_cmd_syntax", .syntax)]

def dispatch (parser : Str) : Option Handler := handlerTable.lookup parser

/-- The selected method of `_parse_command` -/
def runHandler (h : Handler) (ea : ExArg) (cmd : Cmd) (st : PState) : Prog PState :=
  match h with
  | .append => cmdAppend ea st
  | .break_ => cmdBreak ea st
  | .call => cmdCall ea st
  | .catch_ => cmdCatch ea st
  | .common => cmdCommon ea cmd st
  | .continue_ => cmdContinue ea st
  | .delfunction => cmdDelfunction ea st
  | .echo => cmdEcho .echo ea st
  | .echoerr => cmdEcho .echoerr ea st
  | .echohl => cmdEchohl ea st
  | .echomsg => cmdEcho .echomsg ea st
  | .echon => cmdEcho .echon ea st
  | .else_ => cmdElse ea st
  | .elseif => cmdElseif ea st
  | .endfor => cmdEndfor ea st
  | .endfunction => cmdEndfunction ea st
  | .endif => cmdEndif ea st
  | .endtry => cmdEndtry ea st
  | .endwhile => cmdEndwhile ea st
  | .execute => cmdExecute ea st
  | .finally_ => cmdFinally ea st
  | .finish => cmdFinish ea cmd st
  | .for_ => cmdFor ea st
  | .function => cmdFunction ea cmd st
  | .if_ => cmdIf ea st
  | .let_ => cmdLet ea cmd st
  | .const_ => cmdConst ea cmd st
  | .loadkeymap => cmdLoadkeymap ea st
  | .lockvar => cmdLockvar ea st
  | .lua => cmdLua ea st
  | .modifierRange => cmdModifierRange ea st
  | .return_ => cmdReturn ea st
  | .throw => cmdThrow ea st
  | .eval => cmdEval ea st
  | .try_ => cmdTry ea st
  | .unlet => cmdUnlet ea st
  | .unlockvar => cmdUnlockvar ea st
  | .while_ => cmdWhile ea st
  | .wincmd => cmdWincmd ea st
  | .syntax => cmdSyntax ea st

/-- `for self.reader.peekn(1) == self.ea.cmd.name`, go/vimlparser.go:697-700 -/
def parseAmount (name : Str) : Prog Nat :=
  loop (fun (n : Nat) => do
    if (← peekn 1) = name then
      let _ ← getn 1
      pure (.inl (n + 1))
    else pure (.inr n)) 1

/-- `:write` / `:update` prefix, go/vimlparser.go:673-685 -/
def parseWrite (ea : ExArg) (cmd : Cmd) : Prog ExArg := do
  if cmd.name = cs!"write" ∨ cmd.name = cs!"update" then
    if ← pIs 0 '>' then
      if !(← pIs 1 '>') then errAt cs!"E494: Use w or w>>" ea.cmdpos
      else
        seekCur 2
        skipWhite
        pure { ea with append := 1 }
    else if (← peekn 1) = cs!"!" ∧ cmd.name = cs!"write" then
      let _ ← getn 1
      pure { ea with usefilter := true }
    else pure ea
  else pure ea

/-- `:read` prefix, go/vimlparser.go:686-694 -/
def parseRead (ea : ExArg) (cmd : Cmd) : Prog ExArg := do
  if cmd.name = cs!"read" then
    if ea.forceit then pure { ea with usefilter := true, forceit := false }
    else if (← peekn 1) = cs!"!" then
      let _ ← getn 1
      pure { ea with usefilter := true }
    else pure ea
  else pure ea

/-- `:<` and `:>`, go/vimlparser.go:695-702 -/
def parseShift (ea : ExArg) (cmd : Cmd) : Prog ExArg := do
  if cmd.name = cs!"<" ∨ cmd.name = cs!">" then
    let n ← parseAmount cmd.name
    skipWhite
    pure { ea with amount := n }
  else pure ea

/-- The bang, go/vimlparser.go:657-662 -/
def parseBang (cmd : Cmd) : Prog Bool := do
  if (← peekn 1) = cs!"!" ∧ cmd.name ≠ cs!"substitute" ∧ cmd.name ≠ cs!"smagic" ∧
      cmd.name ≠ cs!"snomagic" then
    let _ ← getn 1
    pure true
  else pure false

/-- The part of `parse_command` after the command has been found, go/vimlparser.go:657-706 -/
def parseCommandArgs (ea : ExArg) (cmd : Cmd) (st : PState) : Prog PState := do
  let forceit ← parseBang cmd
  let ea := { ea with cmd := some cmd, forceit := forceit }
  if (!cmd.has .BANG && forceit && !cmd.has .USERCMD) = true then
    errAt cs!"E477: No ! allowed" ea.cmdpos
  else
    (if cmd.name ≠ cs!"!" then skipWhite else pure ())
    let argpos ← getpos
    let ea := { ea with argpos := some argpos }
    let ea ← if cmd.has .ARGOPT then parseArgopt ea else pure ea
    let ea ← parseWrite ea cmd
    let ea ← parseRead ea cmd
    let ea ← parseShift ea cmd
    let ea ← if (cmd.has .EDITCMD && !ea.usefilter) = true then parseArgcmd ea else pure ea
    match dispatch cmd.parser with
    | none => .fail .crash
    | some h => runHandler h ea cmd st

/-- `parse_command`, go/vimlparser.go:643-707 -/
def parseCommand (ea : ExArg) (st : PState) : Prog PState := do
  skipWhiteAndColon
  let cmdpos ← getpos
  let ea := { ea with cmdpos := cmdpos }
  let c ← peekn 1
  if c = [] ∨ c = cs!"\"" then
    if !ea.modifiers.isEmpty || !ea.range.isEmpty then cmdModifierRange ea st else pure st
  else
    let (cmd, cache) ← findCommand st.neovim st.cache
    let st := { st with cache := cache }
    match cmd with
    | none =>
      setpos cmdpos
      let l ← peekline
      errAt (cs!"E492: Not an editor command: " ++ l) cmdpos
    | some cmd => parseCommandArgs ea cmd st

/-- `parse_one_cmd`, go/vimlparser.go:412-434 -/
def parseOneCmd (st : PState) : Prog PState := do
  if (← peekn 2) = cs!"#!" then
    let _ ← getline
    let _ ← get
    pure st
  else
    skipWhiteAndColon
    let c ← peekn 1
    if c = [] then
      let _ ← get
      pure st
    else if c = cs!"\"" then
      let st ← parseComment st
      let _ ← get
      pure st
    else
      let linepos ← getpos
      let ms ← parseModifiers
      let rg ← parseRange
      let st ← parseCommand { linepos := linepos, modifiers := ms, range := rg } st
      parseTrail st

/-- Nodes still open at the end keep `nil` end pointers. -/
def collapse (cur : Frame) : List Frame → Frame
  | [] => cur
  | f :: fs => collapse (f.attach (cur.close none)) fs

/-- The file node: position of the toplevel node and its body. -/
structure VFile where
  pos : Pos
  body : List VStmt
deriving Repr, Inhabited

/-- Main loop of `parse`, go/vimlparser.go:400-402 -/
def parseCmds (st : PState) : Prog PState :=
  loop (fun (st : PState) => do
    if (← peek) = .eof then pure (.inr st)
    else
      let st ← parseOneCmd st
      pure (.inl st)) st

/-- `VimLParser.parse`, go/vimlparser.go:395-410 -/
def parseToplevel (neovim : Bool) : Prog VFile := do
  let q ← getpos
  let st ← parseCmds { neovim := neovim, cur := { head := .toplevel }, stack := [], cache := [] }
  let e ← getpos
  checkMissingEndfunction st cs!"TOPLEVEL" e
  checkMissingEndif st cs!"TOPLEVEL" e
  checkMissingEndtry st cs!"TOPLEVEL" e
  checkMissingEndwhile st cs!"TOPLEVEL" e
  checkMissingEndfor st cs!"TOPLEVEL" e
  pure ⟨q, (collapse st.cur st.stack).body⟩

end Viml
