/-
Properties of `ParseExpr` and of the expression parser: C05-C08 (expressions), C12, C13, C18, C19
(lambdas), C38, C41 (expressions).  `parseExpr src` is `ParseExpr` on the bytes `src`;
`parseExprLines` is the same after the input was split into lines and decoded.
-/
import Verif.Lemmas.Api

namespace Viml.Props
open Viml Viml.Spec

/-! ### C05-C08: results, errors and positions -/

/-- C05 for `ParseExpr`: it always returns, with exactly one of node and error. -/
theorem C05_parseExpr (src : List UInt8) :
    ∃ res, parseExpr src = some res ∧ (res.node.isSome ↔ res.err = none) := by
  unfold parseExpr
  rcases parseExprLines_good ((readlines src).map decodeUtf8) with ⟨a, h, _⟩ | ⟨msg, q, h, _⟩
  · exact ⟨_, h, by simp⟩
  · exact ⟨_, h, by simp⟩

/-- C06 for `ParseExpr`: every rejection is an `ErrVimlParser`. -/
theorem C06_parseExpr (src : List UInt8) (er : ApiErr) (n : Option Ast.Expr)
    (h : parseExpr src = some ⟨n, some er⟩) : ∃ off line col msg, er = .parse [] off line col msg := by
  unfold parseExpr at h
  rcases parseExprLines_good ((readlines src).map decodeUtf8) with ⟨a, h1, _⟩ | ⟨msg, q, h1, h2⟩
  · rw [h1] at h; cases h
  · rw [h1] at h; cases h
    exact ⟨_, _, _, _, rfl⟩

/-- C07 for `ParseExpr`: the error is located at a place of the input or its end. -/
theorem C07_parseExpr (src : List UInt8) (fn : Str) (off line col : Nat) (msg : Str)
    (n : Option Ast.Expr) (h : parseExpr src = some ⟨n, some (.parse fn off line col msg)⟩) :
    SrcPos ((readlines src).map decodeUtf8) line col ∧ fn = [] := by
  unfold parseExpr at h
  rcases parseExprLines_good ((readlines src).map decodeUtf8) with ⟨a, h1, _⟩ | ⟨msg, q, h1, h2⟩
  · rw [h1] at h; cases h
  · rw [h1] at h; cases h
    exact ⟨posOK_src h2, rfl⟩

/-- C08 for `ParseExpr`: every position in the tree is a place of the input, without file name. -/
theorem C08_parseExpr (src : List UInt8) (a : Ast.Expr) (er : Option ApiErr)
    (h : parseExpr src = some ⟨some a, er⟩) :
    AllE (fun e => ∀ q ∈ ownPos e, SrcPos ((readlines src).map decodeUtf8) q.line q.column ∧
      q.filename = []) (fun _ => False) a := by
  obtain ⟨_, _, hall⟩ := parseExprLines_all h
  refine Spec.AllE.noKeys ?_ (hall.imp (Q := fun e => ∀ q ∈ ownPos e, _) fun e he q hq => (he.pos q hq).src)
  intro e he
  refine litKey_leaf (fun q v hq => ?_) he
  simpa [ownPos] using hq.src

/-- What the theorem says about one rejected input: `foo(` fails at the end of its only line. -/
example : (parseExpr [102, 111, 111, 40]).map (·.err) =
    some (some (.parse [] 4 1 5 cs!"unexpected token: <EOL>")) := by decide +kernel

/-! ### C12: literals -/

/-- C12.  Every literal, name, operator and bracket of the tree stands in the source, verbatim, at
its position, and literals have the shape of their kind (`StringLit` includes the quotes).  The
exception are keys of `#{...}` dictionaries, which get quotes added (`litKey`). -/
theorem C12_verbatim (lines : List Str) (a : Ast.Expr) (er : Option ApiErr)
    (h : parseExprLines lines = some ⟨some a, er⟩) :
    AllE (fun e => (∀ x ∈ ownText e, TextAt (mkEnv lines) [] x.1 x.2) ∧ openOK (mkEnv lines) [] e ∧
      shapeOK e) (litKey (mkEnv lines) []) a :=
  (parseExprLines_all h).2.2.imp fun _ he => ⟨he.text, he.open_, he.shape⟩

/-- A tree with a string, a blob, a register and a method call. -/
example : (match parseExprLines [cs!"\"a\\\"b\"->f(0z1F, @x)"] with
    | some ⟨some (.method (.basicLit q .STRING v) (.ident i) _ [.basicLit _ .BLOB b, .basicLit _ .REG g]), none⟩ =>
      q.column == 1 && v == cs!"\"a\\\"b\"" && i.name == cs!"f" && b == cs!"0z1F" && g == cs!"@x"
    | _ => false) = true := by decide +kernel

/-! ### C37: operators -/

/-- C37.  The operator of every node is the whole token that stands at the position of the node, spelt
as `token.String` says (`..` is read as `.`). -/
theorem C37_source (lines : List Str) (a : Ast.Expr) (er : Option ApiErr)
    (h : parseExprLines lines = some ⟨some a, er⟩) : AllE (opOK (mkEnv lines) []) (fun _ => False) a := by
  refine Spec.AllE.noKeys ?_ ((parseExprLines_all h).2.2.imp (Q := opOK (mkEnv lines) []) fun e he => he.opr)
  exact fun e he => litKey_leaf (fun q v _ => fun h => absurd rfl h) he

/-- `==#` and not `==`; `isnot?`; `..`; `!` before `=~`. -/
example : (match parseExprLines [cs!"a ==# !b . (c isnot? d..e)"] with
    | some ⟨some (.binary _ q .EQEQCS (.binary (.unary _ .NOT _) _ .DOT
        (.paren _ (.binary _ q' .ISNOTCI (.binary _ _ .DOT _))))), none⟩ => q.column == 3 && q'.column == 15
    | _ => false) = true := by decide +kernel

/-! ### C13: precedence -/

/-- C13.  In every tree the operands of every operator are at the level it requires. -/
theorem C13_precedence (lines : List Str) (a : Ast.Expr) (er : Option ApiErr)
    (h : parseExprLines lines = some ⟨some a, er⟩) : 1 ≤ level a ∧ AllE precOK (fun _ => False) a := by
  obtain ⟨_, h1, hall⟩ := parseExprLines_all h
  refine ⟨h1, Spec.AllE.noKeys ?_ (hall.imp (Q := precOK) fun e he => he.prec)⟩
  exact fun e he => litKey_leaf (fun q v _ => trivial) he

/-- `1 - 2 - 3 * -x.y` associates to the left and binds `*` tighter. -/
example : (match parseExprLines [cs!"1 - 2 - 3 * -x.y"] with
    | some ⟨some (.binary (.binary (.basicLit ..) _ .MINUS (.basicLit ..)) _ .MINUS
        (.binary (.basicLit ..) _ .STAR (.unary _ .MINUS (.dot ..)))), none⟩ => true
    | _ => false) = true := by decide +kernel

/-! ### C18, C19: arguments and parameters -/

/-- C18.  No call of a returned tree has more than 20 arguments. -/
theorem C18_arguments (lines : List Str) (a : Ast.Expr) (er : Option ApiErr)
    (h : parseExprLines lines = some ⟨some a, er⟩) : AllE argsOK (fun _ => False) a := by
  refine Spec.AllE.noKeys ?_ ((parseExprLines_all h).2.2.imp (Q := argsOK) fun e he => he.args)
  exact fun e he => litKey_leaf (fun q v _ => trivial) he

/-- Twenty arguments are accepted, one more is rejected with E740. -/
example : (match parseExprLines [cs!"f(1,2,3,4,5,6,7,8,9,0,1,2,3,4,5,6,7,8,9,0)"] with
    | some ⟨some (.call _ _ as), none⟩ => as.length == 20
    | _ => false) = true ∧
    (parseExprLines [cs!"f(1,2,3,4,5,6,7,8,9,0,1,2,3,4,5,6,7,8,9,0,1)"]).map (·.err) =
      some (some (.parse [] 43 1 44 cs!"E740: Too many arguments for function")) := by
  decide +kernel

/-- C19 for lambdas: parameter names are valid and distinct and `...` comes last. -/
theorem C19_lambda (lines : List Str) (a : Ast.Expr) (er : Option ApiErr)
    (h : parseExprLines lines = some ⟨some a, er⟩) : AllE paramsOK (fun _ => False) a := by
  refine Spec.AllE.noKeys ?_ ((parseExprLines_all h).2.2.imp (Q := paramsOK) fun e he => he.params)
  exact fun e he => litKey_leaf (fun q v _ => trivial) he

example : (match parseExprLines [cs!"{a, b, ... -> a + b}"] with
    | some ⟨some (.lambda _ ps (.binary ..)), none⟩ => ps.map (·.name) == [cs!"a", cs!"b", cs!"..."]
    | _ => false) = true := by decide +kernel

/-! ### C38, C41: how far the parser reads -/

/-- C41 for expressions: anywhere in the input, a successful `parse_expr1` has moved forward over at
least one character and no line end. -/
theorem C41_expr (lines : List Str) (r : List Cell) (e : VExpr) (r' : List Cell)
    (hs : r <:+ (mkEnv lines).buf) (h : parseExpr1.run (mkEnv lines) r = .ok e r') :
    ∃ v, v ≠ [] ∧ Reads r v r' := by
  rcases parseExpr1_good lines [] hs with ⟨e', r1, h1, h2, _⟩ | ⟨msg, q, h1, _⟩
  · rw [h1] at h; cases h
    obtain ⟨v, hv⟩ := Spec.Reads.of_adv h2.adv
    refine ⟨v, ?_, hv⟩
    rintro rfl
    have := hv.len
    have := h2.lt
    simp at *; omega
  · rw [h1] at h; cases h

/-- The same for assignment targets (`LvalueParser`). -/
theorem C41_lvalue (lines : List Str) (r : List Cell) (e : VExpr) (r' : List Cell)
    (hs : r <:+ (mkEnv lines).buf) (h : lv8.run (mkEnv lines) r = .ok e r') :
    ∃ v, v ≠ [] ∧ Reads r v r' := by
  have hw := lv8_spec (mkEnv_ok lines) (good_closed (fn := []) (mkEnv_ok lines)) hs
  have hd := wp_run hw h
  obtain ⟨v, hv⟩ := Spec.Reads.of_adv hd.adv.adv
  refine ⟨v, ?_, hv⟩
  rintro rfl
  have := hv.len
  have := hd.adv.lt
  simp at *; omega

/-- C38.  When `ParseExpr` succeeds, the parser has read a non-empty prefix of the first logical line
and nothing else. -/
theorem C38_prefix (lines : List Str) (a : Ast.Expr) (er : Option ApiErr)
    (h : parseExprLines lines = some ⟨some a, er⟩) :
    ∃ e r' v rest more, parseExpr1.run (mkEnv lines) (mkEnv lines).buf = .ok e r' ∧
      Export.expr [] e = some a ∧ Reads (mkEnv lines).buf v r' ∧ v ≠ [] ∧
      logicalLines lines = (v ++ rest) :: more := by
  unfold parseExprLines at h
  simp only at h
  split at h
  · rename_i e r' hr
    split at h <;> simp at h
    rename_i a' ha
    obtain ⟨rfl, _⟩ := h
    obtain ⟨v, hne, hv⟩ := C41_expr lines _ e r' (Suf.self _) hr
    have hl := C01_logical_lines lines
    obtain ⟨pre, h1, h2⟩ := hv
    rw [h1, List.map_append, h2] at hl
    cases hL : logicalLines lines with
    | nil =>
      rw [hL] at hl
      simp at hl
      exact absurd hl.1 hne
    | cons l more =>
      rw [hL] at hl
      simp only [List.flatMap_cons, List.append_assoc] at hl
      refine ⟨e, r', v, l.drop v.length, more, hr, ha, ⟨pre, h1, h2⟩, hne, ?_⟩
      have key : ∀ (v l : Str) (x y : List (Option Char)),
          v.map some ++ x = l.map some ++ none :: y → v ++ l.drop v.length = l := by
        intro v
        induction v with
        | nil => intro l x y _; simp
        | cons c v ih =>
          intro l x y h
          cases l with
          | nil => simp at h
          | cons d l =>
            simp only [List.map_cons, List.cons_append, List.cons.injEq, Option.some.injEq] at h
            simp [h.1, ih l x y h.2]
      rw [key v l _ _ hl]
  · simp only [Option.map_eq_some_iff] at h
    obtain ⟨_, _, h⟩ := h
    cases h

/-- C38: what follows is ignored. -/
example : (match parseExprLines [cs!"1 2", cs!"]"] with
    | some ⟨some (.basicLit _ .NUMBER v), none⟩ => v == cs!"1"
    | _ => false) = true := by decide +kernel

end Viml.Props
