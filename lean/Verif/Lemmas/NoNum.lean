/-
Only counts of modifiers and the depth of `:lockvar` can be out of range.
-/
import Verif.Lemmas.FileErrTop

namespace Viml
open Prog Spec

/-- The program does not fail because of a number. -/
class NN {α : Type} (m : Prog α) : Prop where
  h : Avoids Fail.isNum m

macro "nn" : tactic => `(tactic| (refine ⟨?_⟩; avoid [NN.h]))

section tokens
variable {k : Nat} {c : Char} {f : Char → Bool} {q : Pos} {s : Str} {ty : TT}

instance : NN (pIs k c) := ⟨avoids_pIs proper_num⟩
instance : NN (pSat k f) := ⟨avoids_pSat proper_num⟩
instance {a b : Prog Bool} [NN a] [NN b] : NN (pand a b) := ⟨avoids_pand NN.h NN.h⟩
instance {a b : Prog Bool} [NN a] [NN b] : NN (por a b) := ⟨avoids_por NN.h NN.h⟩
instance : NN (pure c) := ⟨trivial⟩
instance {b : Bool} : NN (pure b) := ⟨trivial⟩
instance {a : Prog Bool} [NN a] : NN (do return !(← a)) := ⟨avoids_bind NN.h fun _ => trivial⟩
instance : NN (mkTok ty s q) := ⟨trivial⟩
instance : NN (advTok ty s q) := by unfold advTok; nn
instance {k : CmpK} : NN (cmpTok k s q) := by unfold cmpTok; nn
instance : NN readWord := by unfold readWord; nn
instance : NN readDigit := by unfold readDigit; nn
instance : NN readWhite := by unfold readWhite; nn
instance : NN readXdigit := by unfold readXdigit; nn
instance : NN readBdigit := by unfold readBdigit; nn
instance : NN readName := by unfold readName; nn
instance : NN readAlpha := by unfold readAlpha; nn
instance : NN readAlnum := by unfold readAlnum; nn
instance : NN readline := by unfold readline; nn
instance : NN eof := ⟨fun _ => trivial⟩
instance : NN readNonwhite := by unfold readNonwhite; nn
instance : NN readBlob := by unfold readBlob; nn
instance : NN (get2Punct c q) := by unfold get2Punct; nn
instance : NN (get2Number q) := by unfold get2Number; nn
instance : NN get2 := by unfold get2; nn
instance : NN getUncached := by unfold getUncached; nn

theorem tokGet_nonum (env : Env) (r : List Cell) (e : Fail) (h : tokGet env r = .fail e) : ¬ Fail.isNum e :=
  avoids_run (NN.h (m := getUncached)) (fun _ env r e he => by cases he; rintro ⟨⟩) h

instance : NN tokget := ⟨⟨tokGet_nonum, fun _ => trivial⟩⟩
instance : NN tokpeek := by unfold tokpeek; nn
instance {α : Type} {t : Token} : NN (unexpected t : Prog α) := by unfold unexpected; nn

end tokens

section expr
variable {rec : Prog VExpr} [NN rec]

instance : NN getSstring := by unfold getSstring; nn
instance : NN getDstring := by unfold getDstring; nn
instance : NN parseDictLiteralKey := by unfold parseDictLiteralKey; nn
instance {ops : TT → Option BinTy} : NN (binLoop rec ops) := by unfold binLoop; nn
instance : NN (parseRlist rec) := by unfold parseRlist; nn
instance : NN (parseCurlyParts rec) := by unfold parseCurlyParts; nn
instance : NN (parseIdentifier rec) := by unfold parseIdentifier; nn
instance {t : Token} {l : VExpr} : NN (parseDot t l) := by unfold parseDot; nn
instance : NN expectSqclose := by unfold expectSqclose; nn
instance {q : Pos} {l : VExpr} {o : Option VExpr} : NN (sliceEnd rec q l o) := by unfold sliceEnd; nn
instance {q : Pos} {l : VExpr} : NN (parseSubscript rec q l) := by unfold parseSubscript; nn
instance : NN (do return (← tokpeek).ty = TT.comma : Prog Bool) := by nn
instance {t : Token} : NN (lambdaParams t) := by unfold lambdaParams; nn
instance {b : Bool} {s : List Cell} {q : Pos} : NN (parseDict rec b s q) := by unfold parseDict; nn
instance {s : List Cell} {t : Token} : NN (parseBrace rec s t) := by unfold parseBrace; nn
instance {q : Pos} : NN (parseListItems rec q) := by unfold parseListItems; nn
instance : NN (expr9 rec) := by unfold expr9; nn
instance : NN (expr8 rec) := by unfold expr8; nn
theorem nn_expr7N (n : Nat) : NN (expr7N rec n) := by
  induction n with
  | zero => exact ⟨by rintro ⟨⟩⟩
  | succ n ih => unfold expr7N; nn
instance : NN (expr7 rec) := ⟨fun _ => (nn_expr7N _).h⟩
instance : NN (expr6 rec) := by unfold expr6; infer_instance
instance : NN (expr5 rec) := by unfold expr5; infer_instance
instance : NN (expr4 rec) := by unfold expr4; nn
instance : NN (expr3 rec) := by unfold expr3; infer_instance
instance : NN (expr2 rec) := by unfold expr2; infer_instance
instance : NN (expr1 rec) := by unfold expr1; nn
theorem nn_expr1F (n : Nat) : NN (parseExpr1F n) := by
  induction n with
  | zero => exact ⟨by rintro ⟨⟩⟩
  | succ n ih => unfold parseExpr1F; infer_instance
instance : NN parseExpr1 := ⟨fun _ => (nn_expr1F _).h⟩
instance : NN lv9 := by unfold lv9; nn
instance : NN lv8 := by unfold lv8; nn

end expr

/-! ### Commands -/

instance {st : PState} {ends : Str} {q : Pos} : NN (checkMissingEndfunction st ends q) := by unfold checkMissingEndfunction; nn
instance {st : PState} {ends : Str} {q : Pos} : NN (checkMissingEndif st ends q) := by unfold checkMissingEndif; nn
instance {st : PState} {ends : Str} {q : Pos} : NN (checkMissingEndtry st ends q) := by unfold checkMissingEndtry; nn
instance {st : PState} {ends : Str} {q : Pos} : NN (checkMissingEndwhile st ends q) := by unfold checkMissingEndwhile; nn
instance {st : PState} {ends : Str} {q : Pos} : NN (checkMissingEndfor st ends q) := by unfold checkMissingEndfor; nn
instance {st : PState} {e : Option EndNode} : NN (popCtx st e) := by unfold popCtx; nn
instance {delim : Str} : NN (parsePattern delim) := by unfold parsePattern; nn
instance : NN readInteger := by unfold readInteger; nn
instance {tokens : List Str} : NN (rangeInts tokens) := by unfold rangeInts; nn
instance {tokens : List Str} {c : Str} : NN (rangeAtom tokens c) := by unfold rangeAtom; nn
instance {tokens : List Str} : NN (rangeInner tokens) := by unfold rangeInner; nn
instance : NN parseRange := by unfold parseRange; nn
instance : NN readCmdName := by unfold readCmdName; nn
instance {neovim : Bool} {cache : List (Str × Option Cmd)} : NN (findCommand neovim cache) := by unfold findCommand; nn
instance {ea : ExArg} : NN (parseArgopt ea) := by unfold parseArgopt; nn
instance : NN readCmdarg := by unfold readCmdarg; nn
instance {ea : ExArg} : NN (parseArgcmd ea) := by unfold parseArgcmd; nn
instance {st : PState} : NN (parseComment st) := by unfold parseComment; nn
instance {st : PState} : NN (parseTrail st) := by unfold parseTrail; nn
instance {ea : ExArg} {st : PState} : NN (cmdModifierRange ea st) := by unfold cmdModifierRange; nn
instance : NN skipVimgrepPat := by unfold skipVimgrepPat; nn
instance {ea : ExArg} {cmd : Cmd} : NN (separateNextcmd ea cmd) := by unfold separateNextcmd; nn
instance {ea : ExArg} {cmd : Cmd} {st : PState} : NN (cmdCommon ea cmd st) := by unfold cmdCommon; nn
instance {m : Str} {lines : List Str} : NN (linesUntil m lines) := by unfold linesUntil; nn
instance {ea : ExArg} {st : PState} : NN (cmdAppend ea st) := by unfold cmdAppend; nn
instance {ea : ExArg} {st : PState} : NN (cmdLoadkeymap ea st) := by unfold cmdLoadkeymap; nn
instance {ea : ExArg} {st : PState} : NN (cmdLua ea st) := by unfold cmdLua; nn
instance {ea : ExArg} {cmd : Cmd} {st : PState} : NN (cmdFinish ea cmd st) := by unfold cmdFinish; nn
instance {ea : ExArg} {st : PState} : NN (cmdWincmd ea st) := by unfold cmdWincmd; nn
instance {ea : ExArg} {st : PState} : NN (cmdSyntax ea st) := by unfold cmdSyntax; nn
instance : NN parseExprlist := by unfold parseExprlist; nn
instance : NN parseLvalueFunc := by unfold parseLvalueFunc; nn
instance : NN parseLvalue := by unfold parseLvalue; nn
instance : NN parseConstlvalue := by unfold parseConstlvalue; nn
instance : NN parseLvaluelist := by unfold parseLvaluelist; nn
instance {single : Prog VExpr} [NN single] : NN (parseLhs single) := by unfold parseLhs; nn
instance : NN parseLetlhs := by unfold parseLetlhs; nn
instance : NN parseConstlhs := by unfold parseConstlhs; nn
instance : NN parseParams := by unfold parseParams; nn
instance : NN parseFuncAttrs := by unfold parseFuncAttrs; nn
instance {ea : ExArg} {cmd : Cmd} {st : PState} : NN (cmdFunction ea cmd st) := by unfold cmdFunction; nn
instance {ea : ExArg} {st : PState} : NN (cmdEndfunction ea st) := by unfold cmdEndfunction; nn
instance {ea : ExArg} {st : PState} : NN (cmdDelfunction ea st) := by unfold cmdDelfunction; nn
instance {ea : ExArg} {st : PState} : NN (cmdReturn ea st) := by unfold cmdReturn; nn
instance {ea : ExArg} {st : PState} : NN (cmdCall ea st) := by unfold cmdCall; nn
instance : NN heredocHead := by unfold heredocHead; nn
instance {op : Str} : NN (heredocBody op) := by unfold heredocBody; nn
instance {ea : ExArg} {st : PState} : NN (parseHeredoc ea st) := by unfold parseHeredoc; nn
instance {ea : ExArg} {cmd : Cmd} {st : PState} : NN (cmdLet ea cmd st) := by unfold cmdLet; nn
instance {ea : ExArg} {cmd : Cmd} {st : PState} : NN (cmdConst ea cmd st) := by unfold cmdConst; nn
instance {ea : ExArg} {st : PState} : NN (cmdUnlet ea st) := by unfold cmdUnlet; nn
instance {ea : ExArg} {st : PState} : NN (cmdIf ea st) := by unfold cmdIf; nn
instance {ea : ExArg} {st : PState} : NN (cmdElseif ea st) := by unfold cmdElseif; nn
instance {ea : ExArg} {st : PState} : NN (cmdElse ea st) := by unfold cmdElse; nn
instance {ea : ExArg} {st : PState} : NN (cmdEndif ea st) := by unfold cmdEndif; nn
instance {ea : ExArg} {st : PState} : NN (cmdWhile ea st) := by unfold cmdWhile; nn
instance {ea : ExArg} {st : PState} : NN (cmdEndwhile ea st) := by unfold cmdEndwhile; nn
instance {ea : ExArg} {st : PState} : NN (cmdFor ea st) := by unfold cmdFor; nn
instance {ea : ExArg} {st : PState} : NN (cmdEndfor ea st) := by unfold cmdEndfor; nn
instance {ea : ExArg} {st : PState} : NN (cmdContinue ea st) := by unfold cmdContinue; nn
instance {ea : ExArg} {st : PState} : NN (cmdBreak ea st) := by unfold cmdBreak; nn
instance {ea : ExArg} {st : PState} : NN (cmdTry ea st) := by unfold cmdTry; nn
instance {ea : ExArg} {st : PState} : NN (cmdCatch ea st) := by unfold cmdCatch; nn
instance {ea : ExArg} {st : PState} : NN (cmdFinally ea st) := by unfold cmdFinally; nn
instance {ea : ExArg} {st : PState} : NN (cmdEndtry ea st) := by unfold cmdEndtry; nn
instance {ea : ExArg} {st : PState} : NN (cmdThrow ea st) := by unfold cmdThrow; nn
instance {ea : ExArg} {st : PState} : NN (cmdEval ea st) := by unfold cmdEval; nn
instance {ty : EchoTy} {ea : ExArg} {st : PState} : NN (cmdEcho ty ea st) := by unfold cmdEcho; nn
instance {ea : ExArg} {st : PState} : NN (cmdEchohl ea st) := by unfold cmdEchohl; nn
instance {ea : ExArg} {st : PState} : NN (cmdExecute ea st) := by unfold cmdExecute; nn
instance {name : Str} : NN (parseAmount name) := by unfold parseAmount; nn
instance {ea : ExArg} {cmd : Cmd} : NN (parseWrite ea cmd) := by unfold parseWrite; nn
instance {ea : ExArg} {cmd : Cmd} : NN (parseRead ea cmd) := by unfold parseRead; nn
instance {ea : ExArg} {cmd : Cmd} : NN (parseShift ea cmd) := by unfold parseShift; nn
instance {cmd : Cmd} : NN (parseBang cmd) := by unfold parseBang; nn

end Viml
