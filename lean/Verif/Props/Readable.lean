/-
C73: the S-expressions of expressions are unambiguous.
-/
import Verif.Lemmas.ReadableInj
import Verif.Lemmas.ReadableFile
import Verif.Lemmas.Print
import Verif.Props.Expr
import Verif.Props.Stmt
import Verif.Props.Grammar
import Verif.Props.File
import Verif.Props.Compiler

namespace Viml.Props
open Viml Viml.Spec Viml.Readable

/-- A word of letters, digits, `_` and `-` in quotes is a string. -/
theorem sbody_key : ∀ (s a : Str), SBody a → (∀ c ∈ s, (isalnum c || c == '_' || c == '-') = true) → SBody (a ++ s)
  | [], a, ha, _ => by simpa using ha
  | c :: s, a, ha, h => by
    have := sbody_key s (a ++ [c]) (.char ha (by
      rintro rfl
      exact absurd (h '\'' (by simp)) (by decide))) fun c hc => h c (by simp [hc])
    simpa using this

theorem key_shape {env : Env} {fn : Str} {e : Ast.Expr} (h : litKey env fn e) : AllE shapeOK (fun _ => False) e := by
  cases e <;> simp only [litKey] at h
  obtain ⟨rfl, s, r, r1, rfl, hne, hs, hr, rfl, hc⟩ := h
  exact .mk _ (.inr ⟨s, sbody_key s [] .nil hc, rfl⟩) (by simp [subs]) (by simp [keys])

theorem all_Q {e : Ast.Expr} (h1 : Everywhere shapeOK e) (h2 : Everywhere precOK e) (h3 : Everywhere paramsOK e)
    (h4 : Everywhere curlyOK e) (h5 : Everywhere clear e) : Everywhere Q e :=
  Spec.AllE.imp (fun _ h => ⟨h.1.1.1.1, h.1.1.1.2, h.1.1.2, h.1.2, h.2⟩)
    (Spec.Everywhere.and (Spec.Everywhere.and (Spec.Everywhere.and (Spec.Everywhere.and h1 h2) h3) h4) h5)

/-- Two trees as the parser makes them with the same S-expression. -/
theorem sx_inj {a b : Ast.Expr} (ha : Everywhere Q a) (ha' : 1 ≤ level a) (hb : Everywhere Q b) (hb' : 1 ≤ level b)
    (h : (sx a).text = (sx b).text) : bare a = bare b := by
  rw [← text_tx a (all_noHere ha), ← text_tx b (all_noHere hb)] at h
  exact injU a ha ha' b hb hb' (text_inj (wf_tx a ha ha') (wf_tx b hb hb') h)

theorem parsed_Q {lines : List Str} {a : Ast.Expr} {er : Option ApiErr} (h : parseExprLines lines = some ⟨some a, er⟩)
    (hc : Everywhere clear a) : Everywhere Q a ∧ 1 ≤ level a := by
  have h0 := (parseExprLines_all h).1
  subst h0
  obtain ⟨r', h4⟩ := (C51_lines lines a).1 h
  refine ⟨all_Q ?_ (C13_precedence lines a _ h).2 (C19_lambda lines a _ h) (partsGram h4) hc, (C13_precedence lines a _ h).1⟩
  exact Spec.AllE.noKeys (fun e he => key_shape he) ((C12_verbatim lines a _ h).imp fun _ h => h.2.2)

theorem allS_and {P P' : List Kind → Ast.Stmt → Prop} {ctx : List Kind} {s : Ast.Stmt} (h : AllS P ctx s) :
    AllS P' ctx s → AllS (fun c s => P c s ∧ P' c s) ctx s := by
  induction h with
  | mk ctx s h1 _ ih =>
    intro h
    cases h with
    | mk _ _ g1 g2 => exact .mk ctx s ⟨h1, g1⟩ fun x hx => ih x hx (g2 x hx)

theorem allF_and {P P' : List Kind → Ast.Stmt → Prop} {f : Ast.File} (h : AllF P f) (h' : AllF P' f) :
    AllF (fun c s => P c s ∧ P' c s) f := fun s hs => allS_and (h s hs) (h' s hs)

/-- The expressions of a file. -/
theorem file_Q {nv : Bool} {fn : Str} {lines : List Str} {f : Ast.File} {er : Option ApiErr}
    (h : parseFileLines nv fn lines = some ⟨some f, er⟩) :
    AllF (fun _ s => ∀ e ∈ exprsOf s, isHeredoc e = false → Everywhere clear e → Everywhere Q e ∧ 1 ≤ level e) f := by
  have h0 := (parseFileLines_all h).1
  subst h0
  refine Spec.AllF.imp ?_ (allF_and (allF_and (C12_parseFile nv fn lines f _ h) (C13_parseFile nv fn lines f _ h))
    (allF_and (C19_parseFile nv fn lines f _ h) (curly_file ((C52_lines nv fn lines f).1 h))))
  intro _ s ⟨⟨h1, h2⟩, h3, h4⟩ e he hh hc
  refine ⟨all_Q ?_ (h2 e he hh).2 (h3.2 e he hh) (h4 e he) hc, (h2 e he hh).1⟩
  exact Spec.AllE.noKeys (fun e he => key_shape he) ((h1 e he hh).imp fun _ h => h.2.2)

/-! ### The theorems -/

mutual

theorem sx_bare : ∀ e : Ast.Expr, sx (bare e) = sx e
  | .ternary _ c l r => by simp only [bare, sx, sx_bare c, sx_bare l, sx_bare r]
  | .binary l _ op r => by simp only [bare, sx, sx_bare l, sx_bare r]
  | .unary _ op x => by simp only [bare, sx, sx_bare x]
  | .subscript _ l r => by simp only [bare, sx, sx_bare l, sx_bare r]
  | .slice x _ lo hi => by simp only [bare, sx, sx_bare x, sx_bareO lo, sx_bareO hi]
  | .method l m _ as => by simp only [bare, sx, sx_bare l, sx_bare m, sx_bareL as]
  | .call f _ as => by simp only [bare, sx, sx_bare f, sx_bareL as]
  | .dot l _ i => by simp only [bare, sx, sx_bare l]
  | .basicLit _ k v => rfl
  | .list _ vs => by simp only [bare, sx, sx_bareL vs]
  | .dict _ kvs => by simp only [bare, sx, sx_bareP kvs]
  | .curlyName _ ps => by simp only [bare, sx, sx_bareCat ps]
  | .curlyNameLit _ v => rfl
  | .curlyNameExpr _ e => by simp only [bare, sx, sx_bare e]
  | .ident i => rfl
  | .lambda _ ps e => by simp [bare, sx, sx_bare e]
  | .paren _ x => by simp only [bare, sx, sx_bare x]
  | .heredoc _ fl m b => by simp only [bare, sx, sx_bareQ fl, sx_bareC b]

theorem sx_bareO : ∀ o : Option Ast.Expr, sxNil (bareO o) = sxNil o
  | none => rfl
  | some e => by simp only [bareO, sxNil, sx_bare e]

theorem sx_bareL : ∀ l : List Ast.Expr, sxs (bareL l) = sxs l
  | [] => rfl
  | e :: l => by simp only [bareL, sxs, sx_bare e, sx_bareL l]

theorem sx_bareCat : ∀ l : List Ast.Expr, sxCat (bareL l) = sxCat l
  | [] => rfl
  | e :: l => by simp only [bareL, sxCat, sx_bare e, sx_bareCat l]

theorem sx_bareQ : ∀ l : List Ast.Expr, sxQ (bareL l) = sxQ l
  | [] => rfl
  | e :: l => by simp only [bareL, sxQ, sx_bare e, sx_bareQ l]

theorem sx_bareC : ∀ l : List Ast.Expr, sxC (bareL l) = sxC l
  | [] => rfl
  | e :: l => by simp only [bareL, sxC, sx_bare e, sx_bareC l]

theorem sx_bareP : ∀ l : List (Ast.Expr × Ast.Expr), sxPairs (bareP l) = sxPairs l
  | [] => rfl
  | (k, v) :: l => by simp only [bareP, sxPairs, sx_bare k, sx_bare v, sx_bareP l]

end

/-- C73.  Two parsed expressions with the same S-expression are the same up to positions and parentheses, and the other
way round, unless they contain one of the nodes that are not `clear`. -/
theorem C73_text {lines lines' : List Str} {a b : Ast.Expr} {er er' : Option ApiErr}
    (ha : parseExprLines lines = some ⟨some a, er⟩) (hb : parseExprLines lines' = some ⟨some b, er'⟩)
    (ca : Everywhere clear a) (cb : Everywhere clear b) : (sx a).text = (sx b).text ↔ bare a = bare b := by
  constructor
  · obtain ⟨h1, h2⟩ := parsed_Q ha ca
    obtain ⟨h3, h4⟩ := parsed_Q hb cb
    exact sx_inj h1 h2 h3 h4
  · intro h
    rw [← sx_bare a, h, sx_bare]

/-- C73, for what `Compile` writes. -/
theorem C73_compile {src src' : List UInt8} {a b : Ast.Expr} {er er' : Option ApiErr}
    (ha : parseExpr src = some ⟨some a, er⟩) (hb : parseExpr src' = some ⟨some b, er'⟩)
    (ca : Everywhere clear a) (cb : Everywhere clear b) (pa : '%' ∉ (sx a).text) (pb : '%' ∉ (sx b).text) :
    Comp.compileExpr a = Comp.compileExpr b ↔ bare a = bare b := by
  rw [C34_expr pa, C34_expr pb, Comp.Out.text.injEq]
  exact C73_text ha hb ca cb

/-- C73.  Expressions that differ only in positions and parentheses are written in the same way. -/
theorem C73_same {a b : Ast.Expr} (h : bare a = bare b) : Comp.compileExpr a = Comp.compileExpr b := by
  unfold Comp.compileExpr
  rw [Comp.expr_eq, Comp.expr_eq, ← sx_bare a, h, sx_bare]

/-- C73, for all expressions of two parsed files. -/
theorem C73_file {nv nv' : Bool} {fn fn' : Str} {lines lines' : List Str} {f g : Ast.File} {er er' : Option ApiErr}
    (hf : parseFileLines nv fn lines = some ⟨some f, er⟩) (hg : parseFileLines nv' fn' lines' = some ⟨some g, er'⟩) :
    AllF (fun _ s => AllF (fun _ t => ∀ a ∈ exprsOf s, ∀ b ∈ exprsOf t, isHeredoc a = false → isHeredoc b = false →
      Everywhere clear a → Everywhere clear b → ((sx a).text = (sx b).text ↔ bare a = bare b)) g) f := by
  refine Spec.AllF.imp (fun _ s hs => ?_) (file_Q hf)
  refine Spec.AllF.imp (fun _ t ht => ?_) (file_Q hg)
  intro a ha b hb na nb ca cb
  obtain ⟨h1, h2⟩ := hs a ha na ca
  obtain ⟨h3, h4⟩ := ht b hb nb cb
  exact ⟨sx_inj h1 h2 h3 h4, fun h => by rw [← sx_bare a, h, sx_bare]⟩

/-- The S-expressions of two sources. -/
def texts2 (s t : String) : Option (Str × Str) :=
  match parseExpr s.toUTF8.toList, parseExpr t.toUTF8.toList with
  | some ⟨some a, none⟩, some ⟨some b, none⟩ => some ((sx a).text, (sx b).text)
  | _, _ => none

/-- Parentheses that change the meaning change the output; others do not. -/
example : texts2 "a - (b - c)" "(a - b) - c" = some (cs!"(- a (- b c))", cs!"(- (- a b) c)") ∧
    texts2 "(a-b) - c" "a - b - (c)" = some (cs!"(- (- a b) c)", cs!"(- (- a b) c)") ∧
    texts2 "a{b}c(1)" "a{b(1)}c" = some (cs!"(a{b}c 1)", cs!"a{(b 1)}c") := by decide +kernel

/-- `a - (f(1))` is clear. -/
example (q : Ast.Pos) : Everywhere clear (.binary (.ident ⟨q, cs!"a"⟩) q .MINUS
    (.paren q (.call (.ident ⟨q, cs!"f"⟩) q [.basicLit q .NUMBER cs!"1"]))) := by
  have leaf : ∀ e, subs e = [] → keys e = [] → clear e → Everywhere clear e :=
    fun e h1 h2 h => .mk _ h (by simp [h1]) (by simp [h2])
  refine .mk _ trivial ?_ (by simp [keys])
  intro e he
  simp only [subs, List.mem_cons, List.not_mem_nil, or_false] at he
  rcases he with rfl | rfl
  · exact leaf _ rfl rfl trivial
  · refine .mk _ trivial ?_ (by simp [keys])
    intro e he
    simp only [subs, List.mem_cons, List.not_mem_nil, or_false] at he
    subst he
    refine .mk _ (by simp only [clear, isName]; decide) ?_ (by simp [keys])
    intro e he
    simp only [subs, List.mem_cons, List.not_mem_nil, or_false] at he
    rcases he with rfl | rfl
    · exact leaf _ rfl rfl trivial
    · exact leaf _ rfl rfl (by simp [clear])

/-- C73 is false without the condition: a list is written as the call of a function named `list`. -/
theorem C73_counterexample : ∃ src src' a b, parseExpr src = some ⟨some a, none⟩ ∧ parseExpr src' = some ⟨some b, none⟩ ∧
    Comp.compileExpr a = .text cs!"(list 1)" ∧ Comp.compileExpr b = .text cs!"(list 1)" ∧ bare a ≠ bare b := by
  have h : (match parseExpr "[1]".toUTF8.toList, parseExpr "list(1)".toUTF8.toList with
    | some ⟨some (.list q as), none⟩, some ⟨some (.call f q' bs), none⟩ =>
      Comp.compileExpr (.list q as) == .text cs!"(list 1)" && Comp.compileExpr (.call f q' bs) == .text cs!"(list 1)"
    | _, _ => false) = true := by decide +kernel
  split at h
  · rename_i q as f q' bs h1 h2
    simp at h
    exact ⟨_, _, _, _, h1, h2, h.1, h.2, by simp [bare]⟩
  · cases h

/-- The same for an absent bound of a slice, which is written as a variable named `nil`. -/
theorem C73_counterexample_nil : ∃ src src' a b, parseExpr src = some ⟨some a, none⟩ ∧
    parseExpr src' = some ⟨some b, none⟩ ∧ Comp.compileExpr a = .text cs!"(slice a nil 2)" ∧
    Comp.compileExpr b = .text cs!"(slice a nil 2)" ∧ bare a ≠ bare b := by
  have h : (match parseExpr "a[:2]".toUTF8.toList, parseExpr "a[nil : 2]".toUTF8.toList with
    | some ⟨some (.slice x q none hi), none⟩, some ⟨some (.slice x' q' (some lo) hi'), none⟩ =>
      Comp.compileExpr (.slice x q none hi) == .text cs!"(slice a nil 2)" &&
        Comp.compileExpr (.slice x' q' (some lo) hi') == .text cs!"(slice a nil 2)"
    | _, _ => false) = true := by decide +kernel
  split at h
  · rename_i h1 h2
    simp at h
    exact ⟨_, _, _, _, h1, h2, h.1, h.2, by simp [bare, bareO]⟩
  · cases h

/-- All the other names that are excluded. -/
example : texts2 "a is b" "is(a, b)" = some (cs!"(is a b)", cs!"(is a b)") ∧
    texts2 "a isnot# b" "isnot#(a, b)" = some (cs!"(isnot# a b)", cs!"(isnot# a b)") ∧
    texts2 "a . b" "concat(a, b)" = some (cs!"(concat a b)", cs!"(concat a b)") ∧
    texts2 "a[b]" "subscript(a, b)" = some (cs!"(subscript a b)", cs!"(subscript a b)") ∧
    texts2 "a->f()" "method(a, f())" = some (cs!"(method a (f))", cs!"(method a (f))") ∧
    texts2 "a.b" "dot(a, b)" = some (cs!"(dot a b)", cs!"(dot a b)") ∧
    texts2 "{}" "dict()" = some (cs!"(dict)", cs!"(dict)") ∧
    texts2 "{x, y -> z}" "lambda(x(y), z)" = some (cs!"(lambda (x y) z)", cs!"(lambda (x y) z)") ∧
    texts2 "a[b : c]" "slice(a, b, c)" = some (cs!"(slice a b c)", cs!"(slice a b c)") := by decide +kernel

end Viml.Props
