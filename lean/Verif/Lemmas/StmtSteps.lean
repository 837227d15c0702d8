/-
What one command does to the parser state, as a relation: a sequence of steps, each adding a node to
the innermost open block or opening, continuing or closing a block.
-/
import Verif.Lemmas.ExprSound
import Verif.Model.VimLParser
import Verif.Spec.Command
import Verif.Spec.Blocks

namespace Viml
open Prog Spec

/-- The input contains a number that does not fit in 32 bits. -/
def BigNumber (env : Env) : Prop :=
  ∃ r d r', Suf env r ∧ Reads r d r' ∧ Many1 isdigit d ∧ 2147483648 ≤ decVal d

/-- Failures of the command parser. -/
def SErr (env : Env) : Fail → Prop
  | .err _ q => PosOK env q
  | .num => BigNumber env
  | _ => False

theorem SErr.of {env : Env} (e : Fail) (h : ErrOK env e) : SErr env e := by
  cases e <;> first | exact h | exact h.elim

/-- The Ex arguments of a command: `r0` is where the command line starts, `rc` where the command name
starts. -/
structure EaAt (env : Env) (r0 rc : List Cell) (ea : ExArg) : Prop where
  suf : Suf env r0
  ne : r0 ≠ []
  line : ea.linepos = posOf env r0
  mods : ∃ rm rr v w, Mods r0 ea.modifiers rm ∧ Adv r0 rm ∧ Reads rm v rr ∧
    RangeText v ea.range ∧ Reads rr w rc ∧ ∀ c ∈ w, iswhite c = true ∨ c = ':'
  cmd : ea.cmdpos = posOf env rc
  none_ : ea.cmd = none → ea.argpos = none
  name : ∀ c, ea.cmd = some c → ∃ ra, ea.argpos = some (posOf env ra) ∧
    NameAt rc c.name c.minlen ea.forceit ra

def EaOK (env : Env) (ea : ExArg) : Prop := ∃ r0 rc, EaAt env r0 rc ea

/-- Commands the parser knows: those of the tables and user commands. -/
def Known (c : Cmd) : Prop :=
  c ∈ builtinCommands ∨ c ∈ neovimAdditionalCommands ∨
    (startsUpper c.name = true ∧ c = ⟨c.name, 0, [.USERCMD], cs!"parse_cmd_usercmd"⟩)

/-- The command of `ea` is parsed by `h`. -/
def CmdIs (ea : ExArg) (h : Handler) : Prop :=
  ∃ cmd, ea.cmd = some cmd ∧ Known cmd ∧ dispatch cmd.parser = some h

/-- A user command. -/
def userCmd (n : Str) : Cmd := ⟨n, 0, [.USERCMD], cs!"parse_cmd_usercmd"⟩

/-- The name is one of a user command: it starts with an upper case letter and the tables have nothing for
it but `Print`. -/
def userName (nv : Bool) (n : Str) : Bool :=
  (match lookupTable nv n with | none => true | some c => c.name == cs!"Print") && startsUpper n

/-- The command a name stands for. -/
def resolve (nv : Bool) (n : Str) : Option Cmd :=
  if userName nv n then some (userCmd n) else lookupTable nv n

/-- The lookup cache says what the tables say. -/
def CacheOK (nv : Bool) (c : List (Str × Option Cmd)) : Prop := ∀ x ∈ c, x.2 = resolve nv x.1

/-- `s` is the text from the start of the line of `ea` to some later place of the line. -/
def LineText (env : Env) (ea : ExArg) (s : Str) (r' : List Cell) : Prop :=
  ∃ r, Suf env r ∧ ea.linepos = posOf env r ∧ Reads r s r' ∧ RawEnd r'

/-- Text of a command with following lines: the command line and the lines up to the marker. -/
def BlockText (env : Env) (ea : ExArg) (line m : Str) (s : Str) (r' : List Cell) : Prop :=
  ∃ r, Suf env r ∧ ea.linepos = posOf env r ∧ BlockAt r line m s r'

/-- Handlers that keep the text of their line. -/
def keepsLine : Handler → Bool
  | .common | .finish | .wincmd | .syntax | .function | .let_ | .const_ | .lua => true
  | _ => false

/-- `r` is on the line of the command, at or after the start of its arguments. -/
def ArgOn (env : Env) (ea : ExArg) (r : List Cell) : Prop :=
  ∃ ra, Suf env ra ∧ ea.argpos = some (posOf env ra) ∧ Adv ra r

theorem ArgOn.suf {env : Env} {ea : ExArg} {r : List Cell} (h : ArgOn env ea r) : Suf env r := by
  obtain ⟨ra, h1, _, h2⟩ := h
  exact h2.suf h1

theorem ArgOn.adv {env : Env} {ea : ExArg} {r r' : List Cell} (h : ArgOn env ea r) (ha : Adv r r') :
    ArgOn env ea r' := by
  obtain ⟨ra, h1, h2, h3⟩ := h
  exact ⟨ra, h1, h2, h3.trans ha⟩

/-- `r` is where the arguments of the command start. -/
def ArgIs (env : Env) (ea : ExArg) (r : List Cell) : Prop :=
  Suf env r ∧ ea.argpos = some (posOf env r)

theorem ArgIs.on {env : Env} {ea : ExArg} {r : List Cell} (h : ArgIs env ea r) : ArgOn env ea r :=
  ⟨r, h.1, h.2, Adv.refl r⟩

/-- The arguments of a script command are not a here document. -/
def ScriptLine (env : Env) (ea : ExArg) : Prop :=
  ∃ r w r1, ArgIs env ea r ∧ Reads r w r1 ∧ White w ∧ (headSym r1).is iswhite = false ∧
    ∀ r2, ¬ Reads r1 cs!"<<" r2

section
variable (env : Env) (P : Nat → ERel)

/-- `e` was returned by the expression parser. -/
def DerE (e : VExpr) : Prop := ∃ r r', Der env P 1 r e r'

/-- `e` was parsed as the target of an assignment. -/
def LvalE (e : VExpr) : Prop := DerE env P e ∧ isLvalue e = true ∧ badVarname e = none

/-- A left-hand side: one target or a list of targets with an optional rest. -/
inductive LhsOK : Lhs → Prop
  | one {e : VExpr} : LvalE env P e → LhsOK ⟨some e, [], none⟩
  | list {l : List VExpr} {o : Option VExpr} : l ≠ [] → (∀ e ∈ l, LvalE env P e) →
      (∀ e, o = some e → LvalE env P e) → LhsOK ⟨none, l, o⟩

/-- Targets of `:unlet` and `:lockvar`: the first one is any expression. -/
def ArgsOK (l : List VExpr) : Prop :=
  ∃ e l', l = e :: l' ∧ DerE env P e ∧ ∀ x ∈ l', LvalE env P x

/-- Targets of `:const`. -/
def constTarget : VExpr → Bool
  | .atom _ .identifier _ => true
  | .curlyname .. => true
  | _ => false

/-- A heredoc on the line of `ea`. -/
inductive HereOK (ea : ExArg) : VExpr → Prop
  | mk {r r' : List Cell} {rl : List (Pos × Str)} {op : Str} {body : List (Pos × Str)} :
      ArgOn env ea r → HereAt env r rl op body r' →
      HereOK ea (.heredoc ea.cmdpos rl op body)

/-- The number after `:lockvar`. -/
def DepthOK (ea : ExArg) (d : Nat) : Prop :=
  ∃ r w ds r', ArgIs env ea r ∧ Reads r (w ++ ds) r' ∧ White w ∧ (∀ c ∈ ds, isdigit c = true) ∧
    (headSym r').is isdigit = false ∧ d = decVal ds

/-- Which handler parses which echo command. -/
def echoH : EchoTy → Handler
  | .echo => .echo | .echon => .echon | .echomsg => .echomsg | .echoerr => .echoerr

/-- Nodes that are added to the innermost open block of a state. -/
inductive Simple (st : PState) : VStmt → Prop
  | comment {s : Str} {r r' : List Cell} : Suf env r → Reads r ('"' :: s) r' → AtEnd r' →
      Simple st (.comment (posOf env r) s)
  | bare {ea : ExArg} {s : Str} {r' : List Cell} : EaOK env ea → ea.cmd = none →
      (ea.modifiers ≠ [] ∨ ea.range ≠ []) → LineText env ea s r' → Simple st (.excmd ea.cmdpos ea s)
  | excmd {ea : ExArg} {h : Handler} {s : Str} {r' : List Cell} : EaOK env ea → CmdIs ea h →
      keepsLine h = true → (h = .lua → ScriptLine env ea) → LineText env ea s r' → Simple st (.excmd ea.cmdpos ea s)
  | append {ea : ExArg} {line s : Str} {r' : List Cell} : EaOK env ea → CmdIs ea .append →
      BlockText env ea line ['.'] s r' → Simple st (.excmd ea.cmdpos ea s)
  | loadkeymap {ea : ExArg} {r : List Cell} {ls : List Str} : EaOK env ea → CmdIs ea .loadkeymap →
      Suf env r → ea.linepos = posOf env r → Lines r ls [] →
      Simple st (.excmd ea.cmdpos ea (List.intercalate ['\n'] ls))
  | script {ea : ExArg} {line m s : Str} {r' : List Cell} : EaOK env ea → CmdIs ea .lua →
      Marker line m → BlockText env ea line m s r' → Simple st (.excmd ea.cmdpos ea s)
  | delfunction {ea : ExArg} {l : VExpr} : EaOK env ea → CmdIs ea .delfunction → DerE env P l →
      isLvalueFunc l = true →
      Simple st (.delfunction ea.cmdpos ea l)
  | return_ {ea : ExArg} {o : Option VExpr} : EaOK env ea → CmdIs ea .return_ →
      st.inContext Head.isFunction = true → (∀ e, o = some e → DerE env P e) →
      Simple st (.return_ ea.cmdpos ea o)
  | excall {ea : ExArg} {q : Pos} {f : VExpr} {as : List VExpr} : EaOK env ea → CmdIs ea .call →
      DerE env P (.call q f as) → Simple st (.excall ea.cmdpos ea (.call q f as))
  | let_ {ea : ExArg} {op : Str} {lhs : Lhs} {e : VExpr} {r r1 r' : List Cell} : EaOK env ea →
      CmdIs ea .let_ → LhsOK env P lhs → op ∈ letOps → ArgOn env ea r → Reads r op r1 →
      Der env P 1 r1 e r' → Simple st (.let_ ea.cmdpos ea op lhs e)
  | heredoc {ea : ExArg} {lhs : Lhs} {e : VExpr} : EaOK env ea → CmdIs ea .let_ →
      LhsOK env P lhs → HereOK env ea e → Simple st (.let_ ea.cmdpos ea cs!"=<<" lhs e)
  | const_ {ea : ExArg} {lhs : Lhs} {e : VExpr} {r r1 r' : List Cell} : EaOK env ea →
      CmdIs ea .const_ → LhsOK env P lhs → (∀ e, lhs.left = some e → constTarget e = true) →
      ArgOn env ea r → Reads r ['='] r1 → Der env P 1 r1 e r' → Simple st (.const_ ea.cmdpos ea ['='] lhs e)
  | unlet {ea : ExArg} {l : List VExpr} : EaOK env ea → CmdIs ea .unlet → ArgsOK env P l →
      Simple st (.unlet ea.cmdpos ea l)
  | lockvar {ea : ExArg} {d : Nat} {l : List VExpr} : EaOK env ea → CmdIs ea .lockvar →
      DepthOK env ea d → ArgsOK env P l → Simple st (.lockvar ea.cmdpos ea d l)
  | unlockvar {ea : ExArg} {d : Nat} {l : List VExpr} : EaOK env ea → CmdIs ea .unlockvar →
      DepthOK env ea d → ArgsOK env P l → Simple st (.unlockvar ea.cmdpos ea d l)
  | continue_ {ea : ExArg} : EaOK env ea → CmdIs ea .continue_ →
      (st.inContext Head.isWhile = true ∨ st.inContext Head.isFor = true) →
      Simple st (.continue_ ea.cmdpos ea)
  | break_ {ea : ExArg} : EaOK env ea → CmdIs ea .break_ →
      (st.inContext Head.isWhile = true ∨ st.inContext Head.isFor = true) →
      Simple st (.break_ ea.cmdpos ea)
  | throw {ea : ExArg} {e : VExpr} : EaOK env ea → CmdIs ea .throw → DerE env P e →
      Simple st (.throw ea.cmdpos ea e)
  | eval {ea : ExArg} {e : VExpr} : EaOK env ea → CmdIs ea .eval → DerE env P e →
      Simple st (.eval ea.cmdpos ea e)
  | echo {ea : ExArg} {ty : EchoTy} {l : List VExpr} : EaOK env ea → CmdIs ea (echoH ty) →
      (∀ e ∈ l, DerE env P e) → Simple st (.echo ty ea.cmdpos ea l)
  | echohl {ea : ExArg} {s : Str} {r r' : List Cell} : EaOK env ea → CmdIs ea .echohl → ArgIs env ea r →
      Reads r s r' → AtStop r' → Simple st (.echohl ea.cmdpos ea s)
  | execute {ea : ExArg} {l : List VExpr} : EaOK env ea → CmdIs ea .execute →
      (∀ e ∈ l, DerE env P e) → Simple st (.execute ea.cmdpos ea l)

/-- Parameters of a function: name with optional default value, and `...`.  `d` says that a default
value occurred before, `named` are the names before. -/
inductive FParams : Bool → List Str → List Cell → List ((Pos × Str) × Option VExpr) →
    List (Pos × Str) → List Cell → Prop
  | close {d : Bool} {named : List Str} {r : List Cell} {t : Token} {r' : List Cell} :
      Tk env r .pclose t r' → FParams d named r [] [] r'
  | dots {d : Bool} {named : List Str} {r : List Cell} {t : Token} {r1 : List Cell} {t' : Token}
      {r' : List Cell} : Tk env r .dotdotdot t r1 → Tk env r1 .pclose t' r' →
      FParams d named r [] [(t.pos, t.value)] r'
  | last {d : Bool} {named : List Str} {r : List Cell} {t : Token} {r1 r2 : List Cell} {t' : Token}
      {r' : List Cell} {o : Option VExpr} : Tk env r .identifier t r1 → isargname t.value = true →
      t.value ≠ cs!"firstline" → t.value ≠ cs!"lastline" → t.value ∉ named → (d = true → o ≠ none) →
      (o = none ∧ r2 = r1 ∨ ∃ e t2 r3, o = some e ∧ Tk env r1 .eq t2 r3 ∧ Der env P 1 r3 e r2) →
      Tk env r2 .pclose t' r' → FParams d named r [((t.pos, t.value), o)] [] r'
  | cons {d : Bool} {named : List Str} {r : List Cell} {t : Token} {r1 r2 : List Cell} {t' : Token}
      {r3 : List Cell} {o : Option VExpr} {ps : List ((Pos × Str) × Option VExpr)}
      {dots : List (Pos × Str)} {r' : List Cell} : Tk env r .identifier t r1 →
      isargname t.value = true → t.value ≠ cs!"firstline" → t.value ≠ cs!"lastline" →
      t.value ∉ named → (d = true → o ≠ none) →
      (o = none ∧ r2 = r1 ∨ ∃ e t2 r3, o = some e ∧ Tk env r1 .eq t2 r3 ∧ Der env P 1 r3 e r2) →
      Tk env r2 .comma t' r3 → FParams (d || o.isSome) (t.value :: named) r3 ps dots r' →
      FParams d named r (((t.pos, t.value), o) :: ps) dots r'

/-- Attributes of a function. -/
def AttrOK (r : List Cell) (a : FuncAttr) : Prop :=
  ∃ ks r' w r1, AttrWords r ks r' ∧ Reads r' w r1 ∧ White w ∧ (headSym r1).is isalpha = false ∧ (∀ k ∈ ks, k ∈ [cs!"range", cs!"abort", cs!"dict", cs!"closure"]) ∧
    a = ⟨ks.contains cs!"range", ks.contains cs!"abort", ks.contains cs!"dict", ks.contains cs!"closure"⟩

/-- The pattern of `:catch`. -/
def CatchOK (ea : ExArg) (s : Str) : Prop := 
  ∃ ra w r, ArgIs env ea ra ∧ Reads ra w r ∧ White w ∧ (s = [] ∧ AtStop r ∨ ∃ r', PatAt r s r')

/-- Heads of blocks and the command that opens them. -/
inductive Opens : Head → Blk → Prop
  | function {ea : ExArg} {l : VExpr} {ps : List ((Pos × Str) × Option VExpr)}
      {dots : List (Pos × Str)} {at_ : FuncAttr} {rp r r' : List Cell} : EaOK env ea →
      CmdIs ea .function → DerE env P l → isLvalueFunc l = true → checkFuncName l = some none →
      ArgOn env ea rp → Reads rp ['('] r → FParams env P false [] r ps dots r' → AttrOK r' at_ →
      Opens (.function ea.cmdpos ea l (ps.map (·.1) ++ dots) (ps.filterMap (·.2)) at_) .function
  | if_ {ea : ExArg} {e : VExpr} : EaOK env ea → CmdIs ea .if_ → DerE env P e →
      Opens (.if_ ea.cmdpos ea e) .if_
  | while_ {ea : ExArg} {e : VExpr} : EaOK env ea → CmdIs ea .while_ → DerE env P e →
      Opens (.while_ ea.cmdpos ea e) .while_
  | for_ {ea : ExArg} {lhs : Lhs} {e : VExpr} : EaOK env ea → CmdIs ea .for_ → LhsOK env P lhs →
      DerE env P e → Opens (.for_ ea.cmdpos ea lhs e) .for_
  | try_ {ea : ExArg} : EaOK env ea → CmdIs ea .try_ → Opens (.try_ ea.cmdpos ea) .try_

/-- Heads of the parts of a block, the command that starts them, the block they belong to and the
parts they may follow. -/
inductive Mids : Head → Blk → (Head → Bool) → (Head → Bool) → Prop
  | elseif {ea : ExArg} {e : VExpr} : EaOK env ea → CmdIs ea .elseif → DerE env P e →
      Mids (.elseif ea.cmdpos ea e) .elseif Head.isIf Head.isElseif
  | else_ {ea : ExArg} : EaOK env ea → CmdIs ea .else_ →
      Mids (.else_ ea.cmdpos ea) .else_ Head.isIf Head.isElseif
  | catch_ {ea : ExArg} {s : Str} : EaOK env ea → CmdIs ea .catch_ →
      CatchOK env ea s → Mids (.catch_ ea.cmdpos ea s) .catch_ Head.isTry Head.isCatch
  | finally_ {ea : ExArg} : EaOK env ea → CmdIs ea .finally_ →
      Mids (.finally_ ea.cmdpos ea) .finally_ Head.isTry Head.isCatch

/-- End commands, the block they close and the parts it may end with. -/
inductive Ends : EndNode → Blk → (Head → Bool) → (Head → Bool) → Prop
  | endfunction {ea : ExArg} : EaOK env ea → CmdIs ea .endfunction →
      Ends ⟨ea.cmdpos, ea⟩ .endfunction Head.isFunction (fun _ => false)
  | endif {ea : ExArg} : EaOK env ea → CmdIs ea .endif →
      Ends ⟨ea.cmdpos, ea⟩ .endif Head.isIf (fun h => h.isElseif || h.isElse)
  | endwhile {ea : ExArg} : EaOK env ea → CmdIs ea .endwhile →
      Ends ⟨ea.cmdpos, ea⟩ .endwhile Head.isWhile (fun _ => false)
  | endfor {ea : ExArg} : EaOK env ea → CmdIs ea .endfor →
      Ends ⟨ea.cmdpos, ea⟩ .endfor Head.isFor (fun _ => false)
  | endtry {ea : ExArg} : EaOK env ea → CmdIs ea .endtry →
      Ends ⟨ea.cmdpos, ea⟩ .endtry Head.isTry (fun h => h.isCatch || h.isFinally)

/-- One step. -/
inductive Step : PState → Option Blk → PState → Prop
  | cache (st : PState) (c : List (Str × Option Cmd)) : CacheOK st.neovim c → Step st none { st with cache := c }
  | add {st : PState} {n : VStmt} : Simple env P st n → Step st none (st.add n)
  | opens {st : PState} {h : Head} {b : Blk} : Opens env P h b → Step st (some b) (st.push h)
  | mid1 {st : PState} {h : Head} {b : Blk} {par sib : Head → Bool} : Mids env P h b par sib →
      par st.cur.head = true → Step st (some b) (st.push h)
  | mid2 {st st1 : PState} {h : Head} {b : Blk} {par sib : Head → Bool} : Mids env P h b par sib →
      sib st.cur.head = true → st.pop none = some st1 → Step st (some b) (st1.push h)
  | end1 {st st' : PState} {e : EndNode} {b : Blk} {par sib : Head → Bool} : Ends env e b par sib →
      par st.cur.head = true → st.pop (some e) = some st' → Step st (some b) st'
  | end2 {st st1 st' : PState} {e : EndNode} {b : Blk} {par sib : Head → Bool} :
      Ends env e b par sib → sib st.cur.head = true → st.pop none = some st1 →
      st1.pop (some e) = some st' → Step st (some b) st'

/-- Steps one after the other; the label lists their block commands. -/
inductive Steps : PState → List Blk → PState → Prop
  | nil (st : PState) : Steps st [] st
  | cons {st : PState} {b : Option Blk} {st1 : PState} {bs : List Blk} {st' : PState} :
      Step env P st b st1 → Steps st1 bs st' → Steps st (b.toList ++ bs) st'

end

section
variable {env : Env} {P : Nat → ERel}

theorem Steps.one {st st' : PState} {b : Option Blk} (h : Step env P st b st') :
    Steps env P st b.toList st' := by
  have := Steps.cons h (.nil st')
  rwa [List.append_nil] at this

theorem Steps.trans {a b c : PState} {l m : List Blk} (h1 : Steps env P a l b)
    (h2 : Steps env P b m c) : Steps env P a (l ++ m) c := by
  induction h1 with
  | nil => exact h2
  | cons h _ ih => rw [List.append_assoc]; exact .cons h (ih h2)

theorem Steps.add {st : PState} {n : VStmt} (h : Simple env P st n) :
    Steps env P st [] (st.add n) := Steps.one (.add h)

end

/-! ### The context stack -/

/-- What a head requires of the blocks around it. -/
def HeadOK : Head → List Frame → Prop
  | .toplevel, fs => fs = []
  | .elseif .., fs => ∃ f fs', fs = f :: fs' ∧ f.head.isIf = true
  | .else_ .., fs => ∃ f fs', fs = f :: fs' ∧ f.head.isIf = true
  | .catch_ .., fs => ∃ f fs', fs = f :: fs' ∧ f.head.isTry = true
  | .finally_ .., fs => ∃ f fs', fs = f :: fs' ∧ f.head.isTry = true
  | _, fs => fs ≠ []

def StackOK : List Frame → Prop
  | [] => True
  | f :: fs => HeadOK f.head fs ∧ StackOK fs

/-- Invariant of the parser state. -/
structure PState.OK (st : PState) : Prop where
  stack : StackOK (st.cur :: st.stack)
  cache : CacheOK st.neovim st.cache

theorem attach_head (f : Frame) (n : VStmt) : (f.attach n).head = f.head := by
  unfold Frame.attach; split <;> rfl

theorem PState.OK.add {st : PState} (h : st.OK) (n : VStmt) : (st.add n).OK := ⟨h.1, h.2⟩

/-- Head after closing the current block. -/
theorem pop_head {st st' : PState} {e : Option EndNode} (hp : st.pop e = some st') :
    ∃ f fs, st.stack = f :: fs ∧ st'.cur.head = f.head ∧ st'.stack = fs ∧ st'.cache = st.cache ∧
      st'.neovim = st.neovim := by
  unfold PState.pop at hp
  split at hp
  · simp at hp
  · rename_i f fs hf
    simp only [Option.some.injEq] at hp
    subst hp
    exact ⟨f, fs, hf, attach_head _ _, rfl, rfl, rfl⟩

theorem PState.OK.pop {st st' : PState} (h : st.OK) {e : Option EndNode} (hp : st.pop e = some st') :
    st'.OK := by
  obtain ⟨f, fs, h1, h2, h3, h4, h5⟩ := pop_head hp
  refine ⟨?_, by rw [h4, h5]; exact h.cache⟩
  have := h.stack.2
  rw [h1] at this
  rw [h3]
  exact ⟨h2 ▸ this.1, this.2⟩

theorem pop_some {st : PState} (h : st.stack ≠ []) (e : Option EndNode) : ∃ st', st.pop e = some st' := by
  unfold PState.pop
  cases hs : st.stack with
  | nil => exact absurd hs h
  | cons f fs => exact ⟨_, rfl⟩

/-- Only the toplevel has nothing around it. -/
theorem PState.OK.stack_ne {st : PState} (h : st.OK) (ht : st.cur.head.isToplevel = false) :
    st.stack ≠ [] := by
  have := h.stack.1
  intro e
  rw [e] at this
  cases hh : st.cur.head <;> rw [hh] at this ht <;> simp_all [HeadOK, Head.isToplevel]

theorem PState.OK.if_below {st : PState} (h : st.OK)
    (hh : st.cur.head.isElseif = true ∨ st.cur.head.isElse = true) :
    ∃ f fs, st.stack = f :: fs ∧ f.head.isIf = true := by
  have := h.stack.1
  cases e : st.cur.head <;> rw [e] at this hh <;> simp_all [HeadOK, Head.isElseif, Head.isElse]

theorem PState.OK.try_below {st : PState} (h : st.OK)
    (hh : st.cur.head.isCatch = true ∨ st.cur.head.isFinally = true) :
    ∃ f fs, st.stack = f :: fs ∧ f.head.isTry = true := by
  have := h.stack.1
  cases e : st.cur.head <;> rw [e] at this hh <;> simp_all [HeadOK, Head.isCatch, Head.isFinally]

theorem PState.OK.push {st : PState} (h : st.OK) {hd : Head} (hh : HeadOK hd (st.cur :: st.stack)) :
    (st.push hd).OK := ⟨⟨hh, h.stack⟩, h.cache⟩

theorem Opens.headOK {env : Env} {P : Nat → ERel} {h : Head} {b : Blk} (ho : Opens env P h b)
    {fs : List Frame} (hf : fs ≠ []) : HeadOK h fs := by
  cases ho <;> exact hf

theorem Mids.headOK {env : Env} {P : Nat → ERel} {h : Head} {b : Blk} {par sib : Head → Bool}
    (hm : Mids env P h b par sib) {f : Frame} {fs : List Frame} (hp : par f.head = true) :
    HeadOK h (f :: fs) := by
  cases hm <;> exact ⟨f, fs, rfl, hp⟩

/-- Below a part of a block is the block. -/
theorem Mids.below {env : Env} {P : Nat → ERel} {h : Head} {b : Blk} {par sib : Head → Bool}
    (hm : Mids env P h b par sib) {st : PState} (ho : st.OK) (hs : sib st.cur.head = true) :
    ∃ f fs, st.stack = f :: fs ∧ par f.head = true := by
  cases hm
  · exact ho.if_below (Or.inl hs)
  · exact ho.if_below (Or.inl hs)
  · exact ho.try_below (Or.inl hs)
  · exact ho.try_below (Or.inl hs)

theorem Step.ok {env : Env} {P : Nat → ERel} {st st' : PState} {b : Option Blk}
    (h : Step env P st b st') (ho : st.OK) : st'.OK := by
  cases h with
  | cache c hc => exact ⟨ho.1, hc⟩
  | add _ => exact ho.add _
  | opens h => exact ho.push (h.headOK (by simp))
  | mid1 h hp => exact ho.push (h.headOK hp)
  | mid2 h hs hp =>
    obtain ⟨f, fs, e, hf⟩ := h.below ho hs
    obtain ⟨f', fs', e', h2, h3, _⟩ := pop_head hp
    rw [e] at e'
    simp only [List.cons.injEq] at e'
    refine (ho.pop hp).push (h.headOK ?_)
    rw [h2, ← e'.1]; exact hf
  | end1 h hp h1 => exact ho.pop h1
  | end2 h hp h1 h2 => exact (ho.pop h1).pop h2

theorem Steps.ok {env : Env} {P : Nat → ERel} {st st' : PState} {bs : List Blk}
    (h : Steps env P st bs st') (ho : st.OK) : st'.OK := by
  induction h with
  | nil => exact ho
  | cons h _ ih => exact ih (h.ok ho)

end Viml
