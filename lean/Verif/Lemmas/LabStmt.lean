/-
The command parser commutes with relabelling of positions.
-/
import Verif.Lemmas.LabExpr

namespace Viml
open Prog

variable {φ : Relab} {ea : ExArg} {cmd : Cmd} {st : PState} {s : Str} {q : Pos}

instance : LSim φ (str2nr s) (str2nr s) := by unfold str2nr; sim
instance : LSim φ (checkMissingEndfunction st s q) (checkMissingEndfunction (lab φ st) s (lab φ q)) := by
  unfold checkMissingEndfunction; sim
instance : LSim φ (checkMissingEndif st s q) (checkMissingEndif (lab φ st) s (lab φ q)) := by
  unfold checkMissingEndif; sim
instance : LSim φ (checkMissingEndtry st s q) (checkMissingEndtry (lab φ st) s (lab φ q)) := by
  unfold checkMissingEndtry; sim
instance : LSim φ (checkMissingEndwhile st s q) (checkMissingEndwhile (lab φ st) s (lab φ q)) := by
  unfold checkMissingEndwhile; sim
instance : LSim φ (checkMissingEndfor st s q) (checkMissingEndfor (lab φ st) s (lab φ q)) := by
  unfold checkMissingEndfor; sim
instance {e : Option EndNode} : LSim φ (popCtx st e) (popCtx (lab φ st) (lab φ e)) := by
  unfold popCtx
  rw [lab_pop]
  cases st.pop e <;> dsimp only [labs] <;> sim

instance : LSim φ (popCtx st none) (popCtx (lab φ st) none) :=
  inferInstanceAs (LSim φ (popCtx st none) (popCtx (lab φ st) (lab φ none)))
instance : LSim φ (popCtx st (some ⟨ea.cmdpos, ea⟩)) (popCtx (lab φ st) (some ⟨(lab φ ea).cmdpos, lab φ ea⟩)) :=
  inferInstanceAs (LSim φ (popCtx st (some ⟨ea.cmdpos, ea⟩)) (popCtx (lab φ st) (lab φ (some ⟨ea.cmdpos, ea⟩))))

instance : LSim φ parseModifiers parseModifiers := by
  unfold parseModifiers
  sim
  all_goals
    rename_i k _ _; dsimp only [labs]; cases findModifier k <;> dsimp only <;> sim
instance : LSim φ (parsePattern s) (parsePattern s) := by unfold parsePattern; sim
instance : LSim φ readInteger readInteger := by unfold readInteger; sim
instance {ts : List Str} : LSim φ (rangeInts ts) (rangeInts ts) := by unfold rangeInts; sim
instance {ts : List Str} : LSim φ (rangeAtom ts s) (rangeAtom ts s) := by unfold rangeAtom; sim
instance {ts : List Str} : LSim φ (rangeInner ts) (rangeInner ts) := by
  unfold rangeInner
  sim
  rename_i o; cases o <;> dsimp only [labs] <;> sim
instance : LSim φ parseRange parseRange := by unfold parseRange; sim
instance : LSim φ readCmdName readCmdName := by unfold readCmdName; sim
instance {nv : Bool} {ca : List (Str × Option Cmd)} : LSim φ (findCommand nv ca) (findCommand nv ca) := by
  unfold findCommand
  sim
  rename_i k; dsimp only [labs]; cases ca.lookup k <;> dsimp only <;> sim
instance : LSim φ (parseArgopt ea) (parseArgopt (lab φ ea)) := by unfold parseArgopt; sim
instance : LSim φ readCmdarg readCmdarg := by unfold readCmdarg; sim
instance : LSim φ (parseArgcmd ea) (parseArgcmd (lab φ ea)) := by unfold parseArgcmd; sim
instance : LSim φ (parseComment st) (parseComment (lab φ st)) := by unfold parseComment; sim
instance : LSim φ (parseTrail st) (parseTrail (lab φ st)) := by unfold parseTrail; sim
instance : LSim φ (cmdModifierRange ea st) (cmdModifierRange (lab φ ea) (lab φ st)) := by
  unfold cmdModifierRange; sim
instance : LSim φ skipVimgrepPat skipVimgrepPat := by unfold skipVimgrepPat; sim
@[labs] theorem lab_getD (o : Option Pos) : ((lab φ o).getD default).i = (o.getD default).i := by
  cases o with
  | none => rfl
  | some q => exact lab_pos_i q
@[labs] theorem lab_sepStop {pc : Str} {c : Char} :
    sepStop (lab φ ea) cmd pc c (lab φ q) = sepStop ea cmd pc c q := by
  simp only [sepStop, labs]
instance : LSim φ (separateNextcmd ea cmd) (separateNextcmd (lab φ ea) cmd) := by
  unfold separateNextcmd
  sim
  rename_i c; cases c <;> dsimp only [lab_sym] <;> sim
  rename_i c; cases c <;> dsimp only [lab_sym] <;> sim
instance : LSim φ (cmdCommon ea cmd st) (cmdCommon (lab φ ea) cmd (lab φ st)) := by unfold cmdCommon; sim
instance {m : Str} {ls : List Str} : LSim φ (linesUntil m ls) (linesUntil m ls) := by unfold linesUntil; sim
instance : LSim φ (cmdAppend ea st) (cmdAppend (lab φ ea) (lab φ st)) := by unfold cmdAppend; sim
instance : LSim φ (cmdLoadkeymap ea st) (cmdLoadkeymap (lab φ ea) (lab φ st)) := by unfold cmdLoadkeymap; sim
instance : LSim φ (cmdLua ea st) (cmdLua (lab φ ea) (lab φ st)) := by unfold cmdLua; sim
instance : LSim φ (cmdFinish ea cmd st) (cmdFinish (lab φ ea) cmd (lab φ st)) := by unfold cmdFinish; sim
instance : LSim φ (cmdWincmd ea st) (cmdWincmd (lab φ ea) (lab φ st)) := by unfold cmdWincmd; sim
instance : LSim φ (cmdSyntax ea st) (cmdSyntax (lab φ ea) (lab φ st)) := by unfold cmdSyntax; sim

instance : LSim φ parseExprlist parseExprlist := by unfold parseExprlist; sim
@[labs] theorem lab_isLvalueFunc (e : VExpr) : isLvalueFunc (lab φ e) = isLvalueFunc e := by
  cases e <;> simp only [labs] <;> try rfl
  rename_i t _; cases t <;> rfl
@[labs] theorem lab_isLvalue (e : VExpr) : isLvalue (lab φ e) = isLvalue e := by
  cases e <;> simp only [labs] <;> try rfl
  rename_i t _; cases t <;> rfl
@[labs] theorem lab_badVarname (e : VExpr) : badVarname (lab φ e) = badVarname e := by
  cases e <;> simp only [labs] <;> try rfl
  rename_i t _; cases t <;> rfl
@[labs] theorem lab_checkFuncName (e : VExpr) : checkFuncName (lab φ e) = checkFuncName e := by
  cases e <;> simp only [labs] <;> try rfl
  rename_i t v; cases t <;> cases v <;> rfl
@[labs] theorem lab_isCall (e : VExpr) : isCall (lab φ e) = isCall e := by
  cases e <;> simp only [labs] <;> rfl
instance : LSim φ parseLvalueFunc parseLvalueFunc := by unfold parseLvalueFunc; sim
instance : LSim φ parseLvalue parseLvalue := by
  unfold parseLvalue
  sim
  rename_i e; rw [lab_badVarname]; cases badVarname e <;> dsimp only <;> sim
instance : LSim φ parseConstlvalue parseConstlvalue := by
  unfold parseConstlvalue
  sim
  rename_i e; rw [lab_badVarname]
  cases badVarname e with
  | some v => sim
  | none =>
    dsimp only
    cases e <;> simp only [labs] <;> try sim
    rename_i t _; cases t <;> dsimp only <;> sim
instance : LSim φ parseLvaluelist parseLvaluelist := by unfold parseLvaluelist; sim
instance {single : Prog VExpr} [LSim φ single single] : LSim φ (parseLhs single) (parseLhs single) := by
  unfold parseLhs; sim
instance : LSim φ parseLetlhs parseLetlhs := by unfold parseLetlhs; sim
instance : LSim φ parseConstlhs parseConstlhs := by unfold parseConstlhs; sim
instance : LSim φ parseParams parseParams := by unfold parseParams; sim
instance : LSim φ parseFuncAttrs parseFuncAttrs := by unfold parseFuncAttrs; sim
instance : LSim φ (cmdFunction ea cmd st) (cmdFunction (lab φ ea) cmd (lab φ st)) := by
  unfold cmdFunction
  sim
  rename_i e _; rw [lab_checkFuncName]
  cases checkFuncName e with
  | none => sim
  | some o => cases o <;> dsimp only <;> sim
instance : LSim φ (cmdEndfunction ea st) (cmdEndfunction (lab φ ea) (lab φ st)) := by unfold cmdEndfunction; sim
instance : LSim φ (cmdDelfunction ea st) (cmdDelfunction (lab φ ea) (lab φ st)) := by unfold cmdDelfunction; sim
instance : LSim φ (cmdReturn ea st) (cmdReturn (lab φ ea) (lab φ st)) := by unfold cmdReturn; sim
instance : LSim φ (cmdCall ea st) (cmdCall (lab φ ea) (lab φ st)) := by unfold cmdCall; sim
instance : LSim φ heredocHead heredocHead := by
  unfold heredocHead
  sim
  rename_i k; cases k <;> dsimp only [lab_str] <;> sim
instance : LSim φ (heredocBody s) (heredocBody s) := by unfold heredocBody; sim
instance : LSim φ (parseHeredoc ea st) (parseHeredoc (lab φ ea) (lab φ st)) := by unfold parseHeredoc; sim
instance : LSim φ (cmdLet ea cmd st) (cmdLet (lab φ ea) cmd (lab φ st)) := by unfold cmdLet; sim
instance : LSim φ (cmdConst ea cmd st) (cmdConst (lab φ ea) cmd (lab φ st)) := by unfold cmdConst; sim
instance : LSim φ (cmdUnlet ea st) (cmdUnlet (lab φ ea) (lab φ st)) := by unfold cmdUnlet; sim
instance : LSim φ parseDepth parseDepth := by unfold parseDepth; sim
instance : LSim φ (cmdLockvar ea st) (cmdLockvar (lab φ ea) (lab φ st)) := by unfold cmdLockvar; sim
instance : LSim φ (cmdUnlockvar ea st) (cmdUnlockvar (lab φ ea) (lab φ st)) := by unfold cmdUnlockvar; sim
instance : LSim φ (cmdIf ea st) (cmdIf (lab φ ea) (lab φ st)) := by unfold cmdIf; sim
instance : LSim φ (cmdElseif ea st) (cmdElseif (lab φ ea) (lab φ st)) := by unfold cmdElseif; sim
instance : LSim φ (cmdElse ea st) (cmdElse (lab φ ea) (lab φ st)) := by unfold cmdElse; sim
instance : LSim φ (cmdEndif ea st) (cmdEndif (lab φ ea) (lab φ st)) := by unfold cmdEndif; sim
instance : LSim φ (cmdWhile ea st) (cmdWhile (lab φ ea) (lab φ st)) := by unfold cmdWhile; sim
instance : LSim φ (cmdEndwhile ea st) (cmdEndwhile (lab φ ea) (lab φ st)) := by unfold cmdEndwhile; sim
instance : LSim φ (cmdFor ea st) (cmdFor (lab φ ea) (lab φ st)) := by unfold cmdFor; sim
instance : LSim φ (cmdEndfor ea st) (cmdEndfor (lab φ ea) (lab φ st)) := by unfold cmdEndfor; sim
instance : LSim φ (cmdContinue ea st) (cmdContinue (lab φ ea) (lab φ st)) := by unfold cmdContinue; sim
instance : LSim φ (cmdBreak ea st) (cmdBreak (lab φ ea) (lab φ st)) := by unfold cmdBreak; sim
instance : LSim φ (cmdTry ea st) (cmdTry (lab φ ea) (lab φ st)) := by unfold cmdTry; sim
instance : LSim φ (cmdCatch ea st) (cmdCatch (lab φ ea) (lab φ st)) := by unfold cmdCatch; sim
instance : LSim φ (cmdFinally ea st) (cmdFinally (lab φ ea) (lab φ st)) := by unfold cmdFinally; sim
instance : LSim φ (cmdEndtry ea st) (cmdEndtry (lab φ ea) (lab φ st)) := by unfold cmdEndtry; sim
instance : LSim φ (cmdThrow ea st) (cmdThrow (lab φ ea) (lab φ st)) := by unfold cmdThrow; sim
instance : LSim φ (cmdEval ea st) (cmdEval (lab φ ea) (lab φ st)) := by unfold cmdEval; sim
instance {ty : EchoTy} : LSim φ (cmdEcho ty ea st) (cmdEcho ty (lab φ ea) (lab φ st)) := by unfold cmdEcho; sim
instance : LSim φ (cmdEchohl ea st) (cmdEchohl (lab φ ea) (lab φ st)) := by unfold cmdEchohl; sim
instance : LSim φ (cmdExecute ea st) (cmdExecute (lab φ ea) (lab φ st)) := by unfold cmdExecute; sim

instance {h : Handler} : LSim φ (runHandler h ea cmd st) (runHandler h (lab φ ea) cmd (lab φ st)) := by
  cases h <;> dsimp only [runHandler] <;> infer_instance
instance : LSim φ (parseAmount s) (parseAmount s) := by unfold parseAmount; sim
instance : LSim φ (parseWrite ea cmd) (parseWrite (lab φ ea) cmd) := by unfold parseWrite; sim
instance : LSim φ (parseRead ea cmd) (parseRead (lab φ ea) cmd) := by unfold parseRead; sim
instance : LSim φ (parseShift ea cmd) (parseShift (lab φ ea) cmd) := by unfold parseShift; sim
instance : LSim φ (parseBang cmd) (parseBang cmd) := by unfold parseBang; sim
instance : LSim φ (parseCommandArgs ea cmd st) (parseCommandArgs (lab φ ea) cmd (lab φ st)) := by
  unfold parseCommandArgs
  sim
  all_goals (cases dispatch cmd.parser <;> dsimp only <;> sim)
instance : LSim φ (parseCommand ea st) (parseCommand (lab φ ea) (lab φ st)) := by
  refine sim_bind inferInstance fun _ => sim_bind inferInstance fun q => sim_bind inferInstance fun c =>
    sim_ite Iff.rfl (sim_ite Iff.rfl ?_ (sim_pure rfl)) (sim_bind inferInstance fun x => ?_)
  · exact inferInstanceAs (LSim φ (cmdModifierRange { ea with cmdpos := q } st)
      (cmdModifierRange (lab φ { ea with cmdpos := q }) (lab φ st)))
  · obtain ⟨cmd, ca⟩ := x
    cases cmd with
    | none => dsimp only [labs]; sim
    | some cmd => exact inferInstanceAs (LSim φ (parseCommandArgs { ea with cmdpos := q } cmd { st with cache := ca })
      (parseCommandArgs (lab φ { ea with cmdpos := q }) cmd (lab φ { st with cache := ca })))
theorem lab_ea_new (q : Pos) (ms : List Modifier) (rg : List Str) :
    lab φ ({ linepos := q, modifiers := ms, range := rg } : ExArg) =
      { linepos := lab φ q, modifiers := ms, range := rg } :=
  congrArg (fun d => ({ linepos := lab φ q, cmdpos := d, modifiers := ms, range := rg } : ExArg)) φ.dflt
instance : LSim φ (parseOneCmd st) (parseOneCmd (lab φ st)) := by
  refine sim_bind inferInstance fun _ => sim_ite Iff.rfl (by sim) (sim_bind inferInstance fun _ =>
    sim_bind inferInstance fun c => sim_ite Iff.rfl (by sim) (sim_ite Iff.rfl (by sim) ?_))
  refine sim_bind inferInstance fun q => sim_bind inferInstance fun ms => sim_bind inferInstance fun rg =>
    sim_bind ?_ fun _ => inferInstance
  have h : LSim φ (parseCommand { linepos := q, modifiers := ms, range := rg } st)
      (parseCommand (lab φ { linepos := q, modifiers := ms, range := rg }) (lab φ st)) := inferInstance
  rw [lab_ea_new] at h
  exact h
instance : LSim φ (parseCmds st) (parseCmds (lab φ st)) := by unfold parseCmds; sim
instance {nv : Bool} : LSim φ (parseToplevel nv) (parseToplevel nv) := by
  unfold parseToplevel
  refine sim_bind inferInstance fun q => sim_bind ?_ fun st => sim_bind inferInstance fun e => ?_
  · exact inferInstanceAs (LSim φ (parseCmds { neovim := nv, cur := { head := .toplevel }, stack := [], cache := [] })
      (parseCmds (lab φ { neovim := nv, cur := { head := .toplevel }, stack := [], cache := [] })))
  · refine sim_bind inferInstance fun _ => sim_bind inferInstance fun _ => sim_bind inferInstance fun _ =>
      sim_bind inferInstance fun _ => sim_bind inferInstance fun _ => sim_pure ?_
    exact congrArg (VFile.mk _) (congrArg Frame.body (lab_collapse st.cur st.stack))

/-- Parsing a relabelled buffer gives the relabelled result. -/
theorem toplevel_lab (nv : Bool) (env : Env) (r : List Cell) :
    (parseToplevel nv).run (lab φ env) (lab φ r) = lab φ ((parseToplevel nv).run env r) :=
  (inferInstance : LSim φ (parseToplevel nv) (parseToplevel nv)).h _ tokGet_lab env r

theorem expr_lab (env : Env) (r : List Cell) :
    parseExpr1.run (lab φ env) (lab φ r) = lab φ (parseExpr1.run env r) :=
  (inferInstance : LSim φ parseExpr1 parseExpr1).h _ tokGet_lab env r

end Viml
