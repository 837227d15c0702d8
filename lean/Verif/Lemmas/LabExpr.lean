/-
The tokenizer and the expression parser commute with relabelling of positions.
-/
import Verif.Lemmas.Lab

namespace Viml
open Prog

variable {φ : Relab}

section tokens
variable {k : Nat} {c : Char} {f : Char → Bool} {q : Pos} {s : Str} {ty : TT}

instance : LSim φ (pIs k c) (pIs k c) := by unfold pIs; sim
instance : LSim φ (pSat k f) (pSat k f) := by unfold pSat; sim
theorem sim_pand {a a' b b' : Prog Bool} (ha : LSim φ a a') (hb : LSim φ b b') : LSim φ (pand a b) (pand a' b') := by
  unfold pand; sim
theorem sim_por {a a' b b' : Prog Bool} (ha : LSim φ a a') (hb : LSim φ b b') : LSim φ (por a b) (por a' b') := by
  unfold por; sim
instance {a a' b b' : Prog Bool} [LSim φ a a'] [LSim φ b b'] : LSim φ (pand a b) (pand a' b') :=
  sim_pand inferInstance inferInstance
instance {a a' b b' : Prog Bool} [LSim φ a a'] [LSim φ b b'] : LSim φ (por a b) (por a' b') :=
  sim_por inferInstance inferInstance
instance {b : Bool} : LSim φ (pure b) (pure b) := sim_pure rfl
instance {a a' : Prog Bool} [LSim φ a a'] : LSim φ (do return !(← a)) (do return !(← a')) := by sim
instance : LSim φ (mkTok ty s q) (mkTok ty s (lab φ q)) := sim_pure rfl
instance : LSim φ (advTok ty s q) (advTok ty s (lab φ q)) := by unfold advTok; sim
instance {k : CmpK} : LSim φ (cmpTok k s q) (cmpTok k s (lab φ q)) := by unfold cmpTok; sim
instance : LSim φ readWord readWord := by unfold readWord; sim
instance : LSim φ readDigit readDigit := by unfold readDigit; sim
instance : LSim φ readWhite readWhite := by unfold readWhite; sim
instance : LSim φ readXdigit readXdigit := by unfold readXdigit; sim
instance : LSim φ readBdigit readBdigit := by unfold readBdigit; sim
instance : LSim φ readName readName := by unfold readName; sim
instance : LSim φ readAlpha readAlpha := by unfold readAlpha; sim
instance : LSim φ readAlnum readAlnum := by unfold readAlnum; sim
instance : LSim φ readNonwhite readNonwhite := by unfold readNonwhite; sim
instance : LSim φ readline readline := by unfold readline; sim
instance : LSim φ readBlob readBlob := by unfold readBlob; sim
instance : LSim φ (get2Punct c q) (get2Punct c (lab φ q)) := by unfold get2Punct; sim
instance : LSim φ (get2Number q) (get2Number (lab φ q)) := by unfold get2Number; sim
instance : LSim φ get2 get2 := by
  unfold get2
  refine sim_bind inferInstance fun q => sim_bind inferInstance fun c => ?_
  cases c <;> dsimp only [lab_sym] <;> sim
instance : LSim φ getUncached getUncached := by unfold getUncached; sim

theorem tokGet_lab (env : Env) (r : List Cell) : tokGet (lab φ env) (lab φ r) = lab φ (tokGet env r) :=
  (inferInstance : LSim φ getUncached getUncached).h _ (fun _ _ => rfl) env r

instance : LSim φ tokget tokget := by
  refine ⟨fun T hT env r => ?_⟩
  simp only [tokget, runWith, hT]
  cases T env r <;> rfl
instance : LSim φ tokpeek tokpeek := by unfold tokpeek; sim

end tokens

section expr
variable {rec : Prog VExpr} [hr : LSim φ rec rec]

instance : LSim φ getSstring getSstring := by
  unfold getSstring
  sim
  rename_i c; cases c <;> dsimp only [lab_sym] <;> sim
instance : LSim φ getDstring getDstring := by
  unfold getDstring
  sim
  rename_i c; cases c <;> dsimp only [lab_sym] <;> sim
  rename_i c; cases c <;> dsimp only [lab_sym] <;> sim
instance : LSim φ parseDictLiteralKey parseDictLiteralKey := by
  unfold parseDictLiteralKey
  sim
  rename_i c; cases c <;> dsimp only [lab_sym] <;> sim
instance {ops : TT → Option BinTy} : LSim φ (binLoop rec ops) (binLoop rec ops) := by
  unfold binLoop
  sim
  rename_i t; dsimp only [lab_tok_ty]; cases ops t.ty <;> dsimp only <;> sim
instance : LSim φ (parseRlist rec) (parseRlist rec) := by
  unfold parseRlist
  sim
instance : LSim φ (parseCurlyParts rec) (parseCurlyParts rec) := by unfold parseCurlyParts; sim
instance : LSim φ (parseIdentifier rec) (parseIdentifier rec) := by
  unfold parseIdentifier
  sim
  rename_i l
  match l with
  | [] => sim
  | a :: b :: l =>
    cases a <;> try sim
    rename_i t _
    cases t <;> sim
  | [a] =>
    cases a <;> try sim
    rename_i t _
    cases t <;> sim
@[labs] theorem lab_dotLeft (e : VExpr) : dotLeft (lab φ e) = dotLeft e := by
  cases e <;> simp only [labs] <;> try rfl
  rename_i t _; cases t <;> rfl
instance {t : Token} {e : VExpr} : LSim φ (parseDot t e) (parseDot (lab φ t) (lab φ e)) := by
  unfold parseDot
  sim
instance : LSim φ expectSqclose expectSqclose := by unfold expectSqclose; sim
instance {q : Pos} {l : VExpr} {o : Option VExpr} :
    LSim φ (sliceEnd rec q l o) (sliceEnd rec (lab φ q) (lab φ l) (lab φ o)) := by unfold sliceEnd; sim
instance {q : Pos} {l : VExpr} :
    LSim φ (parseSubscript rec q l) (parseSubscript rec (lab φ q) (lab φ l)) := by unfold parseSubscript; sim
instance {t : Token} : LSim φ (lambdaParams t) (lambdaParams (lab φ t)) := by unfold lambdaParams; sim
instance {b : Bool} {r : List Cell} {q : Pos} :
    LSim φ (parseDict rec b r q) (parseDict rec b (lab φ r) (lab φ q)) := by unfold parseDict; sim
instance {r : List Cell} {t : Token} : LSim φ (parseBrace rec r t) (parseBrace rec (lab φ r) (lab φ t)) := by
  unfold parseBrace
  sim
  all_goals (rename_i l; cases l <;> dsimp only [labs] <;> sim)
instance {q : Pos} : LSim φ (parseListItems rec q) (parseListItems rec (lab φ q)) := by unfold parseListItems; sim
instance : LSim φ (expr9 rec) (expr9 rec) := by
  unfold expr9
  sim
  dsimp only [lab_tok_ty]
  split <;> sim
instance : LSim φ (expr8 rec) (expr8 rec) := by
  unfold expr8
  sim
  rename_i o; cases o <;> dsimp only [labs] <;> sim
theorem sim_expr7N : ∀ n, LSim φ (expr7N rec n) (expr7N rec n)
  | 0 => inferInstanceAs (LSim φ (.fail .fuel) (.fail .fuel))
  | n + 1 => by
    have := sim_expr7N n
    unfold expr7N
    sim
    rename_i t; dsimp only [lab_tok_ty]; cases opsUnary t.ty <;> dsimp only <;> sim
instance : LSim φ (expr7 rec) (expr7 rec) := sim_tell fun r => by rw [lab_length]; exact sim_expr7N _
instance : LSim φ (expr6 rec) (expr6 rec) := by unfold expr6; sim
instance : LSim φ (expr5 rec) (expr5 rec) := by unfold expr5; sim
instance : LSim φ (expr4 rec) (expr4 rec) := by
  unfold expr4
  sim
  rename_i t; dsimp only [lab_tok_ty]; cases opsCmp t.ty <;> dsimp only <;> sim
instance : LSim φ (expr3 rec) (expr3 rec) := by unfold expr3; sim
instance : LSim φ (expr2 rec) (expr2 rec) := by unfold expr2; sim
instance : LSim φ (expr1 rec) (expr1 rec) := by unfold expr1; sim
end expr

theorem sim_parseExpr1F : ∀ n, LSim φ (parseExpr1F n) (parseExpr1F n)
  | 0 => inferInstanceAs (LSim φ (.fail .fuel) (.fail .fuel))
  | n + 1 => by
    have := sim_parseExpr1F n
    unfold parseExpr1F
    infer_instance
instance : LSim φ parseExpr1 parseExpr1 := sim_tell fun r => by rw [lab_length]; exact sim_parseExpr1F _
instance : LSim φ lv9 lv9 := by
  unfold lv9
  sim
  dsimp only [lab_tok_ty]
  split <;> sim
instance : LSim φ lv8 lv8 := by
  unfold lv8
  sim
  rename_i o; cases o <;> dsimp only [labs] <;> sim

end Viml
