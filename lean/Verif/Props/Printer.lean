/-
C14-C17: the printer.
-/
import Verif.Lemmas.Print
import Verif.Lemmas.ApiFile
import Verif.Lemmas.PrintLine
import Verif.Props.Input

namespace Viml.Props
open Viml Spec Print

/-! ### C17: what can be printed -/

/-- C17.  `Fprint` yields text for exactly the trees of its fragment (`InFragment`). -/
theorem C17_text (e : Ast.Expr) : (∃ s, fprintExpr e = .text s) ↔ InFragment e := by
  constructor
  · rintro ⟨s, h⟩
    unfold fprintExpr at h
    split at h
    · cases h
    · rename_i h'; exact printable_of e 0 h'
  · intro h
    obtain ⟨s, hs⟩ := printable_print h 0
    exact ⟨s, by simp only [fprintExpr, hs]⟩

/-- C17.  For every other expression it panics. -/
theorem C17_panic (e : Ast.Expr) : fprintExpr e = .panic ↔ ¬ InFragment e := by
  rw [← C17_text]
  unfold fprintExpr
  split <;> simp

/-- C17.  For statements and files it returns an error. -/
theorem C17_error (s : Ast.Stmt) (f : Ast.File) : fprintStmt s = .err ∧ fprintFile f = .err := ⟨rfl, rfl⟩

/-- C17: of the binary operators that the parser returns, just `=~` and `=~?` cannot be printed. -/
theorem C17_operators (op : Tok) (l r : Ast.Expr) (q : Ast.Pos) (ho : 2 ≤ opLevel op) (hl : InFragment l)
    (hr : InFragment r) : fprintExpr (.binary l q op r) = .panic ↔ op = .MATCH ∨ op = .MATCHCI := by
  rw [C17_panic]
  constructor
  · intro h
    by_cases h1 : op = .MATCH
    · exact .inl h1
    by_cases h2 : op = .MATCHCI
    · exact .inr h2
    exact absurd (.binary _ _ _ _ ⟨ho, h1, h2⟩ hl hr) h
  · intro h hp
    cases hp with
    | binary _ _ _ _ hb => rcases h with rfl | rfl
                           · exact hb.2.1 rfl
                           · exact hb.2.2 rfl

/-- The printed text of the expression read from a line. -/
def printed (l : Str) : Option Out :=
  match parseExprLines [l] with
  | some ⟨some a, none⟩ => some (fprintExpr a)
  | _ => none

example : printed cs!"-a[0]*(b . c==#1)||$X" = some (.text cs!"-a[0] * (b . c ==# 1) || $X") := by decide +kernel
example : printed cs!"a =~ b" = some .panic := by decide +kernel
example : printed cs!"a =~# b" = some (.text cs!"a =~# b") := by decide +kernel
example : printed cs!"f(1)" = some .panic := by decide +kernel
example : printed cs!"a ? b : c" = some .panic := by decide +kernel

/-! ### C16: trees built by hand -/

/-- C16 and C15 for trees built by hand.  If the leaves are well formed and no comparison is the left operand of a
comparison, the printed text parses; the result is the tree up to positions and parentheses; and it is printed as the
same text. -/
theorem C16_handmade (e : Ast.Expr) (s : Str) (hl : Everywhere leafOK e) (hc : Everywhere cmpOK e)
    (h : fprintExpr e = .text s) :
    ∃ e', parseExprLines [s] = some ⟨some e', none⟩ ∧ ModParens e e' ∧ fprintExpr e' = .text s := by
  have hp := (C17_text e).1 ⟨s, h⟩
  have h0 : Print.expr1 e 0 = some s := by
    unfold fprintExpr at h
    split at h <;> cases h
    assumption
  obtain ⟨k, h1, _⟩ := prn_print hp hl hc (Nat.zero_le _) h0
  obtain ⟨a, h2, h3⟩ := prn_parse h1
  refine ⟨a, h2, (modParens_fix hp 0).trans h3, ?_⟩
  simp only [fprintExpr, ← sameTree_print h3, fix_print hp, h0]

def p0 : Ast.Pos := ⟨0, 1, 1, []⟩
def idn (c : Char) : Ast.Expr := .ident ⟨p0, [c]⟩

/-- `(a + b) * -(c * d)` without nodes for the parentheses. -/
def sample : Ast.Expr :=
  .binary (.binary (idn 'a') p0 .PLUS (idn 'b')) p0 .STAR (.unary p0 .MINUS (.binary (idn 'c') p0 .STAR (idn 'd')))

theorem idn_leaf {c : Char} (h : iswordc1 c = true) : Everywhere leafOK (idn c) :=
  .mk _ (.inl ⟨c, [], rfl, h, by simp⟩) (by simp [idn, subs]) (by simp [idn, keys])

theorem idn_cmp (c : Char) : Everywhere cmpOK (idn c) :=
  .mk _ trivial (by simp [idn, subs]) (by simp [idn, keys])

theorem all_binary {P : Ast.Expr → Prop} {l r : Ast.Expr} {q : Ast.Pos} {op : Tok} (h : P (.binary l q op r))
    (hl : Everywhere P l) (hr : Everywhere P r) : Everywhere P (.binary l q op r) := by
  refine .mk _ h (fun x hx => ?_) (by simp [keys])
  simp only [subs, List.mem_cons, List.not_mem_nil, or_false] at hx
  rcases hx with rfl | rfl
  · exact hl
  · exact hr

theorem all_unary {P : Ast.Expr → Prop} {x : Ast.Expr} {q : Ast.Pos} {op : Tok} (h : P (.unary q op x))
    (hx : Everywhere P x) : Everywhere P (.unary q op x) := by
  refine .mk _ h (fun y hy => ?_) (by simp [keys])
  simp only [subs, List.mem_cons, List.not_mem_nil, or_false] at hy
  subst hy; exact hx

/-- The hypotheses hold for `sample`; the parentheses are put in. -/
example : Everywhere leafOK sample ∧ Everywhere cmpOK sample ∧
    fprintExpr sample = .text cs!"(a + b) * -(c * d)" := by
  refine ⟨?_, ?_, by decide +kernel⟩
  · exact all_binary trivial (all_binary trivial (idn_leaf (by decide)) (idn_leaf (by decide)))
      (all_unary trivial (all_binary trivial (idn_leaf (by decide)) (idn_leaf (by decide))))
  · exact all_binary (by simp [cmpOK, opLevel]) (all_binary trivial (idn_cmp _) (idn_cmp _))
      (all_unary trivial (all_binary trivial (idn_cmp _) (idn_cmp _)))

/-- C16: the condition on comparisons is necessary.  `(a == b) == c` without a node for the parentheses is printed
without parentheses, and the text is cut off by the parser after `b`. -/
theorem C16_comparison :
    fprintExpr (.binary (.binary (idn 'a') p0 .EQEQ (idn 'b')) p0 .EQEQ (idn 'c')) = .text cs!"a == b == c" ∧
    ∃ l q r, parseExprLines [cs!"a == b == c"] = some ⟨some (.binary l q .EQEQ r), none⟩ ∧
      (match l, r with | .ident i, .ident j => i.name = ['a'] ∧ j.name = ['b'] | _, _ => False) := by
  refine ⟨by decide +kernel, .ident ⟨⟨0, 1, 1, []⟩, ['a']⟩, ⟨2, 1, 3, []⟩, .ident ⟨⟨5, 1, 6, []⟩, ['b']⟩, ?_, ?_⟩
  · rfl
  · exact ⟨rfl, rfl⟩

/-- C16: a right operand that is a comparison gets parentheses. -/
example : fprintExpr (.binary (idn 'a') p0 .EQEQ (.binary (idn 'b') p0 .EQEQ (idn 'c'))) =
    .text cs!"a == (b == c)" := by decide +kernel

/-! ### C14 and C15: trees of the parser -/

theorem roundtrip {env : Env} {fn : Str} {e : Ast.Expr} (h : AllE (OkE env fn) (litKey env fn) e)
    (hw : Everywhere wholeLeaf e) {s : Str} (hs : fprintExpr e = .text s) :
    ∃ e', parseExprLines [s] = some ⟨some e', none⟩ ∧ OnceParen e e' ∧ fprintExpr e' = .text s := by
  obtain ⟨hl, hc, hpr⟩ := parsed_ok h hw
  have hp := (C17_text e).1 ⟨s, hs⟩
  have h0 : Print.expr1 e 0 = some s := by
    unfold fprintExpr at hs
    split at hs <;> cases hs
    assumption
  obtain ⟨k, h1, _⟩ := prn_print hp hl hc (Nat.zero_le _) h0
  obtain ⟨a, h2, h3⟩ := prn_parse h1
  refine ⟨a, h2, (onceParen_fix hp 0 hpr (Nat.zero_le _)).trans h3, ?_⟩
  simp only [fprintExpr, ← sameTree_print h3, fix_print hp, h0]

/-- C14.  If the parser returns a tree without cut-off literals and the printer prints it, the printed text parses, and
to the same tree up to positions and parentheses directly inside parentheses (which are written once). -/
theorem C14_roundtrip (lines : List Str) (e : Ast.Expr) (er : Option ApiErr) (s : Str)
    (h : parseExprLines lines = some ⟨some e, er⟩) (hw : Everywhere wholeLeaf e) (hs : fprintExpr e = .text s) :
    ∃ e', parseExprLines [s] = some ⟨some e', none⟩ ∧ OnceParen e e' := by
  obtain ⟨e', h1, h2, _⟩ := roundtrip (parseExprLines_all h).2.2 hw hs
  exact ⟨e', h1, h2⟩

/-- C15.  The printed text is printed as itself. -/
theorem C15_idempotent (lines : List Str) (e : Ast.Expr) (er : Option ApiErr) (s : Str)
    (h : parseExprLines lines = some ⟨some e, er⟩) (hw : Everywhere wholeLeaf e) (hs : fprintExpr e = .text s) :
    printed s = some (.text s) := by
  obtain ⟨e', h1, _, h3⟩ := roundtrip (parseExprLines_all h).2.2 hw hs
  simp only [printed, h1, h3]

/-- C14 and C15 for every expression of every statement of a file. -/
theorem C14_parseFile (nv : Bool) (fn : Str) (lines : List Str) (f : Ast.File) (er : Option ApiErr)
    (h : parseFileLines nv fn lines = some ⟨some f, er⟩) :
    AllF (fun _ st => ∀ e ∈ exprsOf st, Everywhere wholeLeaf e → ∀ s, fprintExpr e = .text s →
      ∃ e', parseExprLines [s] = some ⟨some e', none⟩ ∧ OnceParen e e' ∧ fprintExpr e' = .text s) f := by
  refine (parseFileLines_all h).2.all.imp fun _ _ hst e he hw s hs => ?_
  cases hh : isHeredoc e with
  | false => exact roundtrip (hst.exprs e he hh).2 hw hs
  | true =>
    have := (C17_text e).1 ⟨s, hs⟩
    cases this <;> cases hh

/-- C14: what `Fprint` writes for a tree returned by `ParseExpr` is one line. -/
theorem C14_line (src : List UInt8) (e : Ast.Expr) (er : Option ApiErr) (s : Str)
    (h : parseExpr src = some ⟨some e, er⟩) (hs : fprintExpr e = .text s) : '\n' ∉ s :=
  fprintExpr_nl (mkEnv_nl (readlines_nl src)) (parseExprLines_all h).2.2 hs

/-- C14 on bytes: `ParseExpr` of the bytes that `Fprint` writes for a tree returned by `ParseExpr`, if that is less than
64 kB and does not end in a carriage return, which the scanner would take for a part of the line end. -/
theorem C14_bytes (src : List UInt8) (e : Ast.Expr) (er : Option ApiErr) (s : Str)
    (h : parseExpr src = some ⟨some e, er⟩) (hw : Everywhere wholeLeaf e) (hs : fprintExpr e = .text s)
    (hr : ¬ ['\r'] <:+ s) (hb : bytes s < 65536) :
    ∃ e', parseExpr (fileBytes [s]) = some ⟨some e', none⟩ ∧ OnceParen e e' ∧ fprintExpr e' = .text s := by
  unfold parseExpr
  rw [C40_file [s] (by simpa using ⟨C14_line src e er s h hs, hr, hb⟩)]
  exact roundtrip (parseExprLines_all h).2.2 hw hs

/-- `OnceParen` is equality up to positions if no parentheses stand directly in parentheses. -/
theorem C14_same (e e' : Ast.Expr) (h : OnceParen e e')
    (hn : Everywhere (fun x => ∀ q p y, x ≠ .paren q (.paren p y)) e) : SameTree e e' := by
  induction h with
  | binary q q' op _ _ ihl ihr =>
    exact .binary _ _ _ (ihl (hn.sub (by simp [subs]))) (ihr (hn.sub (by simp [subs])))
  | unary q q' op _ ih => exact .unary _ _ _ (ih (hn.sub (by simp [subs])))
  | subscript q q' _ _ ihl ihr =>
    exact .subscript _ _ (ihl (hn.sub (by simp [subs]))) (ihr (hn.sub (by simp [subs])))
  | basicLit q q' k v => exact .basicLit _ _ _ _
  | ident q q' n => exact .ident _ _ _
  | paren q q' _ _ ih => exact .paren _ _ (ih (hn.sub (by simp [subs])))
  | twice q p _ ih => exact absurd rfl (hn.self q p _)

example : printed cs!"(a+b)*c-'x''y'.@a[&l:ts]==0z12.3A" =
    some (.text cs!"(a + b) * c - 'x''y' . @a[&l:ts] == 0z12.3A") := by decide +kernel

/-- The hypotheses of C14 hold for `a+0z12.3A`. -/
example : ∃ e, parseExprLines [cs!"a+0z12.3A"] = some ⟨some e, none⟩ ∧ Everywhere wholeLeaf e ∧
    fprintExpr e = .text cs!"a + 0z12.3A" := by
  refine ⟨.binary (.ident ⟨⟨0, 1, 1, []⟩, ['a']⟩) ⟨1, 1, 2, []⟩ .PLUS (.basicLit ⟨2, 1, 3, []⟩ .BLOB cs!"0z12.3A"), rfl,
    all_binary trivial (.mk _ trivial (by simp [subs]) (by simp [keys]))
      (.mk _ ⟨by decide, by decide⟩ (by simp [subs]) (by simp [keys])), by decide +kernel⟩

/-- C14: parentheses in parentheses are printed once, so the tree is not literally the same. -/
theorem C14_double : printed cs!"((x))" = some (.text cs!"(x)") := by decide +kernel

/-- C14: the condition on cut-off literals is necessary.  The parser reads `0z12.` from `0z12.A`, and does not accept
it as printed. -/
theorem C14_cutoff : printed cs!"0z12.A" = some (.text cs!"0z12.") ∧ printed cs!"0z12." = none := by decide +kernel

end Viml.Props
