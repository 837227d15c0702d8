/-
Only the lookup of commands looks at the `neovim` option and the lookup cache: every other part of the
command parser commutes with changing them.
-/
import Verif.Lemmas.Wp
import Verif.Model.VimLParser

namespace Viml
open Prog

theorem Prog.bind_pure' {α : Type} (m : Prog α) : (m >>= fun a => pure a) = m := by
  show m.bind _ = m
  induction m with
  | ret a => rfl
  | fail e => rfl
  | ask k ih => exact congrArg Prog.ask (funext ih)
  | tell k ih => exact congrArg Prog.tell (funext ih)
  | seek s k ih => exact congrArg (Prog.seek s) ih
  | tok k ih => exact congrArg Prog.tok (funext ih)

theorem Prog.assoc {α β γ : Type} (m : Prog α) (f : α → Prog β) (g : β → Prog γ) :
    (m >>= f >>= g) = m >>= fun a => f a >>= g := by
  show (m.bind f).bind g = m.bind fun a => (f a).bind g
  induction m with
  | ret a => rfl
  | fail e => rfl
  | ask k ih => exact congrArg Prog.ask (funext ih)
  | tell k ih => exact congrArg Prog.tell (funext ih)
  | seek s k ih => exact congrArg (Prog.seek s) ih
  | tok k ih => exact congrArg Prog.tok (funext ih)

theorem Prog.bindc {α β : Type} {m : Prog α} {f g : α → Prog β} (h : ∀ a, f a = g a) :
    (m >>= f) = m >>= g := congrArg _ (funext h)

theorem Prog.pure_b {α β : Type} (a : α) (f : α → Prog β) : (pure a >>= f) = f a := rfl

theorem Prog.ite_b {α β : Type} {c : Prop} [Decidable c] (a b : Prog α) (f : α → Prog β) :
    ((if c then a else b) >>= f) = if c then a >>= f else b >>= f := by split <;> rfl

theorem Prog.fail_b {α β : Type} (e : Fail) (f : α → Prog β) : ((Prog.fail e : Prog α) >>= f) = .fail e := rfl

theorem Prog.errAt_b {α β : Type} (s : Str) (q : Pos) (f : α → Prog β) :
    ((errAt s q : Prog α) >>= f) = errAt s q := rfl

theorem Prog.errHere_b {α β : Type} (s : Str) (f : α → Prog β) :
    ((errHere s : Prog α) >>= f) = errHere s := by
  unfold errHere; simp only [Prog.assoc, Prog.fail_b]

/-- The state with another option and cache. -/
def PState.swap (st : PState) (x : Bool) (y : List (Str × Option Cmd)) : PState :=
  { st with neovim := x, cache := y }

section
variable (st : PState) (x : Bool) (y : List (Str × Option Cmd))

theorem swap_add (n : VStmt) : (st.swap x y).add n = (st.add n).swap x y := rfl
theorem swap_push (h : Head) : (st.swap x y).push h = (st.push h).swap x y := rfl
theorem swap_cur : (st.swap x y).cur = st.cur := rfl
theorem swap_stack : (st.swap x y).stack = st.stack := rfl
theorem swap_in (f : Head → Bool) : (st.swap x y).inContext f = st.inContext f := rfl

theorem swap_pop (e : Option EndNode) : popCtx (st.swap x y) e = popCtx st e >>= fun s => pure (s.swap x y) := by
  unfold popCtx PState.pop
  rw [swap_stack]
  cases st.stack <;> rfl

theorem swap_m1 (s : Str) (q : Pos) : checkMissingEndfunction (st.swap x y) s q = checkMissingEndfunction st s q := rfl
theorem swap_m2 (s : Str) (q : Pos) : checkMissingEndif (st.swap x y) s q = checkMissingEndif st s q := rfl
theorem swap_m3 (s : Str) (q : Pos) : checkMissingEndtry (st.swap x y) s q = checkMissingEndtry st s q := rfl
theorem swap_m4 (s : Str) (q : Pos) : checkMissingEndwhile (st.swap x y) s q = checkMissingEndwhile st s q := rfl
theorem swap_m5 (s : Str) (q : Pos) : checkMissingEndfor (st.swap x y) s q = checkMissingEndfor st s q := rfl

/-- Normal form of both sides of a commutation equation. -/
macro "swap_simp" "[" ls:Lean.Parser.Tactic.simpLemma,* "]" : tactic =>
  `(tactic| simp only [Prog.assoc, Prog.pure_b, Prog.ite_b, Prog.fail_b, Prog.errAt_b, Prog.errHere_b,
    swap_add, swap_push, swap_cur, swap_stack, swap_in, swap_pop, swap_m1, swap_m2, swap_m3, swap_m4, swap_m5, $ls,*])

macro "swap_steps" : tactic =>
  `(tactic| repeat' first | rfl | (refine Prog.bindc fun _ => ?_) |
    (refine ite_congr rfl (fun _ => ?_) (fun _ => ?_)))

theorem swap_parseComment :
    parseComment (st.swap x y) = parseComment st >>= fun s => pure (s.swap x y) := by
  unfold parseComment; swap_simp []; swap_steps
theorem swap_parseTrail :
    parseTrail (st.swap x y) = parseTrail st >>= fun s => pure (s.swap x y) := by
  unfold parseTrail; swap_simp [swap_parseComment]; swap_steps
theorem swap_cmdModifierRange (ea : ExArg) :
    cmdModifierRange ea (st.swap x y) = cmdModifierRange ea st >>= fun s => pure (s.swap x y) := by
  unfold cmdModifierRange; swap_simp []; swap_steps
theorem swap_cmdCommon (ea : ExArg) (cmd : Cmd) :
    cmdCommon ea cmd (st.swap x y) = cmdCommon ea cmd st >>= fun s => pure (s.swap x y) := by
  unfold cmdCommon; swap_simp []; swap_steps
theorem swap_cmdAppend (ea : ExArg) :
    cmdAppend ea (st.swap x y) = cmdAppend ea st >>= fun s => pure (s.swap x y) := by
  unfold cmdAppend; swap_simp []; swap_steps
theorem swap_cmdLoadkeymap (ea : ExArg) :
    cmdLoadkeymap ea (st.swap x y) = cmdLoadkeymap ea st >>= fun s => pure (s.swap x y) := by
  unfold cmdLoadkeymap; swap_simp []; swap_steps
theorem swap_cmdLua (ea : ExArg) :
    cmdLua ea (st.swap x y) = cmdLua ea st >>= fun s => pure (s.swap x y) := by
  unfold cmdLua; swap_simp []; swap_steps
theorem swap_cmdFinish (ea : ExArg) (cmd : Cmd) :
    cmdFinish ea cmd (st.swap x y) = cmdFinish ea cmd st >>= fun s => pure (s.swap x y) := by
  unfold cmdFinish; swap_simp [swap_cmdCommon]; swap_steps
theorem swap_cmdWincmd (ea : ExArg) :
    cmdWincmd ea (st.swap x y) = cmdWincmd ea st >>= fun s => pure (s.swap x y) := by
  unfold cmdWincmd; swap_simp []; swap_steps
theorem swap_cmdSyntax (ea : ExArg) :
    cmdSyntax ea (st.swap x y) = cmdSyntax ea st >>= fun s => pure (s.swap x y) := by
  unfold cmdSyntax; swap_simp []; swap_steps
theorem swap_cmdFunction (ea : ExArg) (cmd : Cmd) :
    cmdFunction ea cmd (st.swap x y) = cmdFunction ea cmd st >>= fun s => pure (s.swap x y) := by
  unfold cmdFunction; swap_simp [swap_cmdCommon]; swap_steps
  split <;> swap_simp []; swap_steps
theorem swap_cmdEndfunction (ea : ExArg) :
    cmdEndfunction ea (st.swap x y) = cmdEndfunction ea st >>= fun s => pure (s.swap x y) := by
  unfold cmdEndfunction; swap_simp []; swap_steps
theorem swap_cmdDelfunction (ea : ExArg) :
    cmdDelfunction ea (st.swap x y) = cmdDelfunction ea st >>= fun s => pure (s.swap x y) := by
  unfold cmdDelfunction; swap_simp []; swap_steps
theorem swap_cmdReturn (ea : ExArg) :
    cmdReturn ea (st.swap x y) = cmdReturn ea st >>= fun s => pure (s.swap x y) := by
  unfold cmdReturn; swap_simp []; swap_steps
theorem swap_cmdCall (ea : ExArg) :
    cmdCall ea (st.swap x y) = cmdCall ea st >>= fun s => pure (s.swap x y) := by
  unfold cmdCall; swap_simp []; swap_steps
theorem swap_parseHeredoc (ea : ExArg) : parseHeredoc ea (st.swap x y) =
    parseHeredoc ea st >>= fun s => pure (s.1, s.2.swap x y) := by
  unfold parseHeredoc; swap_simp [swap_parseTrail]; swap_steps
theorem swap_cmdLet (ea : ExArg) (cmd : Cmd) :
    cmdLet ea cmd (st.swap x y) = cmdLet ea cmd st >>= fun s => pure (s.swap x y) := by
  unfold cmdLet; swap_simp [swap_cmdCommon, swap_parseHeredoc]; swap_steps
theorem swap_cmdConst (ea : ExArg) (cmd : Cmd) :
    cmdConst ea cmd (st.swap x y) = cmdConst ea cmd st >>= fun s => pure (s.swap x y) := by
  unfold cmdConst; swap_simp [swap_cmdCommon]; swap_steps
theorem swap_cmdUnlet (ea : ExArg) :
    cmdUnlet ea (st.swap x y) = cmdUnlet ea st >>= fun s => pure (s.swap x y) := by
  unfold cmdUnlet; swap_simp []; swap_steps
theorem swap_cmdLockvar (ea : ExArg) :
    cmdLockvar ea (st.swap x y) = cmdLockvar ea st >>= fun s => pure (s.swap x y) := by
  unfold cmdLockvar; swap_simp []; swap_steps
theorem swap_cmdUnlockvar (ea : ExArg) :
    cmdUnlockvar ea (st.swap x y) = cmdUnlockvar ea st >>= fun s => pure (s.swap x y) := by
  unfold cmdUnlockvar; swap_simp []; swap_steps
theorem swap_cmdIf (ea : ExArg) :
    cmdIf ea (st.swap x y) = cmdIf ea st >>= fun s => pure (s.swap x y) := by
  unfold cmdIf; swap_simp []; swap_steps
theorem swap_cmdElseif (ea : ExArg) :
    cmdElseif ea (st.swap x y) = cmdElseif ea st >>= fun s => pure (s.swap x y) := by
  unfold cmdElseif; swap_simp []; swap_steps
theorem swap_cmdElse (ea : ExArg) :
    cmdElse ea (st.swap x y) = cmdElse ea st >>= fun s => pure (s.swap x y) := by
  unfold cmdElse; swap_simp []; swap_steps
theorem swap_cmdEndif (ea : ExArg) :
    cmdEndif ea (st.swap x y) = cmdEndif ea st >>= fun s => pure (s.swap x y) := by
  unfold cmdEndif; swap_simp []; swap_steps
theorem swap_cmdWhile (ea : ExArg) :
    cmdWhile ea (st.swap x y) = cmdWhile ea st >>= fun s => pure (s.swap x y) := by
  unfold cmdWhile; swap_simp []; swap_steps
theorem swap_cmdEndwhile (ea : ExArg) :
    cmdEndwhile ea (st.swap x y) = cmdEndwhile ea st >>= fun s => pure (s.swap x y) := by
  unfold cmdEndwhile; swap_simp []; swap_steps
theorem swap_cmdFor (ea : ExArg) :
    cmdFor ea (st.swap x y) = cmdFor ea st >>= fun s => pure (s.swap x y) := by
  unfold cmdFor; swap_simp []; swap_steps
theorem swap_cmdEndfor (ea : ExArg) :
    cmdEndfor ea (st.swap x y) = cmdEndfor ea st >>= fun s => pure (s.swap x y) := by
  unfold cmdEndfor; swap_simp []; swap_steps
theorem swap_cmdContinue (ea : ExArg) :
    cmdContinue ea (st.swap x y) = cmdContinue ea st >>= fun s => pure (s.swap x y) := by
  unfold cmdContinue; swap_simp []; swap_steps
theorem swap_cmdBreak (ea : ExArg) :
    cmdBreak ea (st.swap x y) = cmdBreak ea st >>= fun s => pure (s.swap x y) := by
  unfold cmdBreak; swap_simp []; swap_steps
theorem swap_cmdTry (ea : ExArg) :
    cmdTry ea (st.swap x y) = cmdTry ea st >>= fun s => pure (s.swap x y) := by
  unfold cmdTry; swap_simp []; swap_steps
theorem swap_cmdCatch (ea : ExArg) :
    cmdCatch ea (st.swap x y) = cmdCatch ea st >>= fun s => pure (s.swap x y) := by
  unfold cmdCatch; swap_simp []; swap_steps
theorem swap_cmdFinally (ea : ExArg) :
    cmdFinally ea (st.swap x y) = cmdFinally ea st >>= fun s => pure (s.swap x y) := by
  unfold cmdFinally; swap_simp []; swap_steps
theorem swap_cmdEndtry (ea : ExArg) :
    cmdEndtry ea (st.swap x y) = cmdEndtry ea st >>= fun s => pure (s.swap x y) := by
  unfold cmdEndtry; swap_simp []; swap_steps
theorem swap_cmdThrow (ea : ExArg) :
    cmdThrow ea (st.swap x y) = cmdThrow ea st >>= fun s => pure (s.swap x y) := by
  unfold cmdThrow; swap_simp []; swap_steps
theorem swap_cmdEval (ea : ExArg) :
    cmdEval ea (st.swap x y) = cmdEval ea st >>= fun s => pure (s.swap x y) := by
  unfold cmdEval; swap_simp []; swap_steps
theorem swap_cmdEcho (ty : EchoTy) (ea : ExArg) :
    cmdEcho ty ea (st.swap x y) = cmdEcho ty ea st >>= fun s => pure (s.swap x y) := by
  unfold cmdEcho; swap_simp []; swap_steps
theorem swap_cmdEchohl (ea : ExArg) :
    cmdEchohl ea (st.swap x y) = cmdEchohl ea st >>= fun s => pure (s.swap x y) := by
  unfold cmdEchohl; swap_simp []; swap_steps
theorem swap_cmdExecute (ea : ExArg) :
    cmdExecute ea (st.swap x y) = cmdExecute ea st >>= fun s => pure (s.swap x y) := by
  unfold cmdExecute; swap_simp []; swap_steps

theorem swap_runHandler (h : Handler) (ea : ExArg) (cmd : Cmd) :
    runHandler h ea cmd (st.swap x y) = runHandler h ea cmd st >>= fun s => pure (s.swap x y) := by
  cases h <;> unfold runHandler <;> dsimp only
  case append => exact swap_cmdAppend ..
  case break_ => exact swap_cmdBreak ..
  case call => exact swap_cmdCall ..
  case catch_ => exact swap_cmdCatch ..
  case common => exact swap_cmdCommon ..
  case continue_ => exact swap_cmdContinue ..
  case delfunction => exact swap_cmdDelfunction ..
  case echo => exact swap_cmdEcho ..
  case echoerr => exact swap_cmdEcho ..
  case echohl => exact swap_cmdEchohl ..
  case echomsg => exact swap_cmdEcho ..
  case echon => exact swap_cmdEcho ..
  case else_ => exact swap_cmdElse ..
  case elseif => exact swap_cmdElseif ..
  case endfor => exact swap_cmdEndfor ..
  case endfunction => exact swap_cmdEndfunction ..
  case endif => exact swap_cmdEndif ..
  case endtry => exact swap_cmdEndtry ..
  case endwhile => exact swap_cmdEndwhile ..
  case execute => exact swap_cmdExecute ..
  case finally_ => exact swap_cmdFinally ..
  case finish => exact swap_cmdFinish ..
  case for_ => exact swap_cmdFor ..
  case function => exact swap_cmdFunction ..
  case if_ => exact swap_cmdIf ..
  case let_ => exact swap_cmdLet ..
  case const_ => exact swap_cmdConst ..
  case loadkeymap => exact swap_cmdLoadkeymap ..
  case lockvar => exact swap_cmdLockvar ..
  case lua => exact swap_cmdLua ..
  case modifierRange => exact swap_cmdModifierRange ..
  case return_ => exact swap_cmdReturn ..
  case throw => exact swap_cmdThrow ..
  case eval => exact swap_cmdEval ..
  case try_ => exact swap_cmdTry ..
  case unlet => exact swap_cmdUnlet ..
  case unlockvar => exact swap_cmdUnlockvar ..
  case while_ => exact swap_cmdWhile ..
  case wincmd => exact swap_cmdWincmd ..
  case «syntax» => exact swap_cmdSyntax ..

theorem swap_parseCommandArgs (ea : ExArg) (cmd : Cmd) :
    parseCommandArgs ea cmd (st.swap x y) = parseCommandArgs ea cmd st >>= fun s => pure (s.swap x y) := by
  unfold parseCommandArgs; swap_simp []; swap_steps
  all_goals split <;> first | rfl | exact swap_runHandler ..
end
end Viml
