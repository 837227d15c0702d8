/-
C31–C35: the compiler of package compiler and the reference compiler.
-/
import Verif.Lemmas.CompFile
import Verif.Lemmas.CompIndent
import Verif.Lemmas.CompTwice
import Verif.Lemmas.RefComp

namespace Viml.Props
open Viml Viml.Spec

/-! ### C31: what `Compile` prints for a parsed file -/

/-- C31.  `Compile` of a file returned by `ParseFile` neither panics nor fails; it writes the specified lines. -/
theorem C31_compiles {nv : Bool} {fn : Str} {src : List UInt8} {f : Ast.File} {er : Option ApiErr}
    (h : parseFile nv fn src = some ⟨some f, er⟩) :
    Comp.compileFile f = .text (unlines (linesL funcLine' 0 f.body)) :=
  have hp := parseFile_printable h
  Comp.compileFile_eq hp.1 hp.2

/-- The same for every printable tree, however it was made. -/
theorem C31_printable {f : Ast.File} (h : AllF (fun _ s => Printable s) f) (hp : NoParts f.body) :
    Comp.compileFile f = .text (unlines (linesL funcLine' 0 f.body)) :=
  Comp.compileFile_eq h hp

/-- A file with a function, a condition, a list and a comment. -/
def src31 : List UInt8 :=
  "function! F(a, b=1, ...) abort\n  if a:a\n    return a:b\n  endif\nendfunction\nlet x = [1, 2] + F(3)\n\" c".toUTF8.toList

example : (match parseFile false [] src31 with
    | some ⟨some f, none⟩ => Comp.compileFile f == .text
        cs!"(function (F a (b 1) . ...)\n  (if a:a\n    (return a:b)))\n(let = x (+ (list 1 2) (F 3)))\n; c\n"
    | _ => false) = true := by decide +kernel

/-- An error in a body that no parsed file contains, such as a part of a block outside of it, is returned if it
is at the top level only; a node without command makes `Compile` panic. -/
example : Comp.compileFile ⟨default, [.else_ default default []]⟩ = .err ∧
    Comp.compileFile ⟨default, [.break_ default default]⟩ = .panic ∧
    Comp.compileFile ⟨default, [.while_ default { cmd := some { name := cs!"while", minlen := 1, flags := [], parser := [] } }
      [.else_ default default []] (.ident ⟨default, cs!"x"⟩) default]⟩ = .text cs!"(while x)\n" := by decide +kernel

/-! ### C32: indentation -/

/-- C32.  Printing any statement leaves the indentation as it was. -/
theorem C32_balanced {s : Ast.Stmt} {st st' : Comp.St} {e : Bool} (h : Comp.stmt s st = some (e, st')) :
    st'.indent = st.indent := by
  have := Comp.shift_stmt s st e st' h
  omega

/-- C32 for sequences. -/
theorem C32_balanced_list {l : List Ast.Stmt} {st st' : Comp.St} {e : Bool} (h : Comp.stmts l st = some (e, st')) :
    st'.indent = st.indent := by
  have := Comp.shift_stmts l st e st' h
  omega

example : (match parseFile false [] "if 1\nwhile 2\nendwhile\nelse\ntry\nfinally\nendtry\nendif".toUTF8.toList with
    | some ⟨some ⟨_, [s]⟩, none⟩ => (Comp.stmt s ⟨[], 3⟩).map (fun x => (x.1, x.2.indent)) == some (false, 3)
    | _ => false) = true := by decide +kernel

/-- C32.  The text of a parsed file is that of its statements, one after the other, each compiled on its own:
all of them start in column 0. -/
theorem C32_concat {nv : Bool} {fn : Str} {src : List UInt8} {f : Ast.File} {er : Option ApiErr}
    (h : parseFile nv fn src = some ⟨some f, er⟩) :
    ∃ ts : List Str, f.body.map Comp.compileStmt = ts.map .text ∧ Comp.compileFile f = .text ts.flatten := by
  have hp := parseFile_printable h
  rw [Comp.compileFile_eq hp.1 hp.2]
  have h1 : ∀ s ∈ f.body, Comp.compileStmt s = .text (unlines (lines funcLine' 0 s)) := by
    intro s hs
    have := (Comp.prints (hp.1 s hs)).stmt (hp.2 s hs) [] 0
    unfold Comp.compileStmt
    rw [show (({} : Comp.St)) = ⟨[], ((0 : Nat) : Int)⟩ from rfl, this]
    simp [Comp.Out.of]
  refine ⟨f.body.map fun s => unlines (lines funcLine' 0 s), ?_, ?_⟩
  · rw [List.map_map]
    exact List.map_congr_left h1
  · congr 1
    generalize f.body = l
    induction l with
    | nil => rfl
    | cons s l ih => rw [linesL, Comp.unlines_append, ih]; rfl

example : (match parseFile false [] "if 1\nbreak | endif\necho 2".toUTF8.toList with
    | some ⟨none, some _⟩ => true | _ => false) = true ∧
    (match parseFile false [] "if 1\nthrow 3 | endif\necho 2".toUTF8.toList with
    | some ⟨some f, none⟩ => f.body.map Comp.compileStmt == [.text cs!"(if 1\n  (throw 3))\n", .text cs!"(echo 2)\n"]
    | _ => false) = true := by decide +kernel

/-! ### C33: compiling twice -/

/-- C33.  `Compile` leaves trees without `...` parameters unchanged, so a second run prints the same. -/
theorem C33_unchanged {f : Ast.File} (h : AllF (fun _ s => ¬ dots s) f) : Comp.afterFile f = f :=
  Comp.afterFile_id h

/-- Parameters of a parsed function: `...` only at the end. -/
theorem dotsLast_of {env : Env} {fn : Str} {ctx : List Kind} {s : Ast.Stmt} (h : OkS env fn ctx s) : Comp.DotsLast s := by
  have hs := h.sig
  unfold Comp.DotsLast
  cases s <;> try (simp [paramsOf]; done)
  rename_i ps da at_ e
  simp only [sigOK] at hs
  obtain ⟨⟨⟨names, ds, h1, h2, _, h4⟩, _⟩, _⟩ := hs
  simp only [paramsOf]
  rw [h1]
  have hn : cs!"..." ∉ names := by
    intro hm
    obtain ⟨c, s, hc, hw, _⟩ := h4 _ hm
    cases hc
    exact absurd hw (by decide)
  rcases h2 with rfl | rfl
  · rw [List.append_nil]
    exact fun hm => hn (List.dropLast_subset _ hm)
  · rw [List.dropLast_concat]
    exact hn

/-- C33.  For parsed files: the second run prints the same text if and only if no function has `...`. -/
theorem C33_iff {nv : Bool} {fn : Str} {src : List UInt8} {f : Ast.File} {er : Option ApiErr}
    (h : parseFile nv fn src = some ⟨some f, er⟩) :
    Comp.compileFile (Comp.afterFile f) = Comp.compileFile f ↔ AllF (fun _ s => ¬ dots s) f := by
  have hn := mkEnv_nl (readlines_nl src)
  have hf := (parseFileLines_all h).2
  exact Comp.compile_after (hf.all.imp fun _ _ hs => ⟨hs.printable hn, dotsLast_of hs⟩) hf.parts

/-- C33 is false without the condition. -/
theorem C33_counterexample : ∃ f, (∃ src, parseFile false [] src = some ⟨some f, none⟩) ∧
    Comp.compileFile (Comp.afterFile f) ≠ Comp.compileFile f := by
  have h : (match parseFile false [] src31 with
    | some ⟨some f, none⟩ => !(Comp.compileFile (Comp.afterFile f) == Comp.compileFile f)
    | _ => false) = true := by decide +kernel
  split at h
  · rename_i f hf
    exact ⟨f, ⟨_, hf⟩, by simpa using h⟩
  · cases h

example : (match parseFile false [] src31 with
    | some ⟨some f, none⟩ => Comp.compileFile (Comp.afterFile f) == .text
        cs!"(function (F a (b 1))\n  (if a:a\n    (return a:b)))\n(let = x (+ (list 1 2) (F 3)))\n; c\n"
    | _ => false) = true := by decide +kernel

/-! ### C34: expressions -/

/-- Text without percent signs is printed as it is. -/
theorem sprintf0_id {s : Str} (h : '%' ∉ s) : Comp.sprintf0 s = s := by
  unfold Comp.sprintf0
  induction s with
  | nil => rfl
  | cons c s ih =>
    rw [List.mem_cons, not_or] at h
    rw [Comp.fmtVerb.go, if_neg (fun hc => h.1 hc.symm), ih h.2]

/-- C34.  `Compile` of an expression writes its S-expression, if that contains no percent sign. -/
theorem C34_expr {e : Ast.Expr} (h : '%' ∉ (sx e).text) : Comp.compileExpr e = .text (sx e).text := by
  unfold Comp.compileExpr
  rw [Comp.expr_eq, sprintf0_id h]
  rfl

/-- C34 is false without the condition: `5 % d` prints a complaint about a missing argument. -/
theorem C34_counterexample : ∃ src e, parseExpr src = some ⟨some e, none⟩ ∧ (sx e).text = cs!"(% 5 d)" ∧
    Comp.compileExpr e = .text cs!"(%!d(MISSING))" := by
  have h : (match parseExpr "5 % d".toUTF8.toList with
    | some ⟨some e, none⟩ => (sx e).text == cs!"(% 5 d)" && Comp.compileExpr e == .text cs!"(%!d(MISSING))"
    | _ => false) = true := by decide +kernel
  split at h
  · rename_i f hf
    simp at h
    exact ⟨_, f, hf, h⟩
  · cases h

example : (match parseExpr "[1, f(x)][0] . {'a': ((2))}.a".toUTF8.toList with
    | some ⟨some e, none⟩ => !(sx e).text.contains '%' &&
        Comp.compileExpr e == .text cs!"(concat (subscript (list 1 (f x)) 0) (dot (dict ('a' 2)) a))"
    | _ => false) = true := by decide +kernel

/-! ### C35: the two compilers -/

/-- C35.  For an accepted source the reference compiler, run on the tree of the internal parser, and package
compiler, run on the public tree, print the same lines, except for the line that opens a function. -/
theorem C35_lines {nv : Bool} {fn : Str} {src : List UInt8} {f : Ast.File} {er : Option ApiErr}
    (h : parseFile nv fn src = some ⟨some f, er⟩) :
    ∃ vf r, (parseToplevel nv).run (envOfBytes src) (envOfBytes src).buf = .ok vf r ∧
      Ref.toplevel vf = some (linesL funcLine 0 f.body) ∧
      Comp.compileFile f = .text (unlines (linesL funcLine' 0 f.body)) := by
  have h1 := C31_compiles h
  cases hr : (parseToplevel nv).run (envOfBytes src) (envOfBytes src).buf with
  | ok vf r => exact ⟨vf, r, rfl, ref_parsed h hr, h1⟩
  | fail e =>
    unfold parseFile parseFileLines at h
    rw [envOfBytes] at hr
    simp only [hr] at h
    cases e <;> simp at h

/-- C35.  If functions are only defined at the top level, both print the same text. -/
theorem C35_agree {nv : Bool} {fn : Str} {src : List UInt8} {f : Ast.File} {er : Option ApiErr}
    (h : parseFile nv fn src = some ⟨some f, er⟩) (ht : AllF topFunction f) :
    ∃ vf r ls, (parseToplevel nv).run (envOfBytes src) (envOfBytes src).buf = .ok vf r ∧
      Ref.toplevel vf = some ls ∧ Comp.compileFile f = .text (unlines ls) := by
  obtain ⟨vf, r, h1, h2, h3⟩ := C35_lines h
  exact ⟨vf, r, _, h1, h2, by rw [h3, linesL_eq ht]⟩

/-- C35.  They print the same text only in that case. -/
theorem C35_iff {nv : Bool} {fn : Str} {src : List UInt8} {f : Ast.File} {er : Option ApiErr}
    (h : parseFile nv fn src = some ⟨some f, er⟩) {vf : VFile} {r : List Cell}
    (hr : (parseToplevel nv).run (envOfBytes src) (envOfBytes src).buf = .ok vf r) {ls : List Str}
    (hl : Ref.toplevel vf = some ls) :
    Comp.compileFile f = .text (unlines ls) ↔ AllF topFunction f := by
  obtain ⟨vf', r', h1, h2, h3⟩ := C35_lines h
  rw [hr] at h1
  cases h1
  rw [hl] at h2
  cases h2
  rw [h3, Comp.Out.text.injEq]
  exact linesL_iff (P := fun _ s => Printable s) (fun _ _ h => h.1) (parseFile_printable h).1

/-- Text of the reference compiler for a source. -/
def refText (src : List UInt8) : Option Str :=
  match (parseToplevel false).run (envOfBytes src) (envOfBytes src).buf with
  | .ok vf _ => (Ref.toplevel vf).map unlines
  | _ => none

example : (match parseFile false [] src31 with
    | some ⟨some f, none⟩ => (refText src31).map Comp.Out.text == some (Comp.compileFile f)
    | _ => false) = true ∧
    refText "let x =<< trim END\na\tb\nEND\nfor [a; b] in {}\nendfor".toUTF8.toList =
      some cs!"(let =<< x (heredoc (list \"trim\") \"END\" (list \"a\\tb\")))\n(for (a . b) (dict))\n" := by decide +kernel

/-- C35 is false for functions inside of blocks: package compiler repeats the indentation in their first line. -/
example : refText "if 1\nfunction F(a)\nendfunction\nendif".toUTF8.toList = some cs!"(if 1\n  (function (F a)))\n" ∧
    (match parseFile false [] "if 1\nfunction F(a)\nendfunction\nendif".toUTF8.toList with
    | some ⟨some f, none⟩ => Comp.compileFile f == .text cs!"(if 1\n  (function (F     a  )))\n"
    | _ => false) = true := by decide +kernel

end Viml.Props
