/-
The grammar of files: names with braces in the expressions of statements are as in expressions.  Used by C73.
-/
import Verif.Lemmas.ReadableGram
import Verif.Spec.File

namespace Viml.Readable
open Viml Viml.Spec

variable {nv : Bool} {env : Env} {fn : Str}

/-- All names with braces in the expression are right. -/
abbrev EC (e : Ast.Expr) : Prop := Everywhere curlyOK e

theorem curly_strs {l : List (Pos × Str)} : ∀ e ∈ strNodes fn l, EC e := by
  intro e he
  simp only [strNodes, List.mem_map] at he
  obtain ⟨x, _, rfl⟩ := he
  exact ev trivial no_keys no_keys

theorem curlyLvStart {r e r'} (h : LvStart env fn r e r') : EC e := by
  cases h with
  | lit => exact ev trivial no_keys no_keys
  | name _ _ h hn =>
    have h1 := partsName h
    have h2 := eparts h
    unfold nameNode
    split
    · exact ev trivial no_keys no_keys
    · rename_i hne
      exact ev (.inl ⟨h2, hn, fun q v e => hne q v e⟩) h1 no_keys
  | @sid r1 v r2 ps _ _ _ hv h =>
    have h1 := partsName h
    have h2 := eparts h
    cases ps with
    | nil => exact ev trivial no_keys no_keys
    | cons p ps =>
      simp only [nameNode]
      exact ev (.inr ⟨_, v, _, rfl, hv, h2, by simp⟩) (evs_cons (ev trivial no_keys no_keys) h1) no_keys

theorem curlyLvChain : ∀ {r e r'}, LvChain env fn r e r' → EC e
  | _, _, _, .start h => curlyLvStart h
  | _, _, _, .subscript h1 _ _ h2 _ => ev trivial (evs_cons (curlyLvChain h1) (evs_cons (partsGram h2) no_keys)) no_keys
  | _, _, _, .slice h1 _ _ h2 _ h3 _ => ev trivial (evs_cons (curlyLvChain h1) (by
      intro x hx
      rcases List.mem_append.1 hx with hx | hx
      · exact partsOpt h2 x (Option.mem_toList.1 hx)
      · exact partsOpt h3 x (Option.mem_toList.1 hx))) no_keys
  | _, _, _, .dot h1 _ _ _ _ => ev trivial (evs_cons (curlyLvChain h1) no_keys) no_keys

theorem curlyTarget {r e r'} (h : Target env fn r e r') : EC e := curlyLvChain h.1.1

theorem curlyTargetList : ∀ {r es x r'}, TargetList env fn r es x r' → (∀ e ∈ es, EC e) ∧ ∀ e ∈ x.toList, EC e
  | _, _, _, _, .last h _ => ⟨evs_cons (curlyTarget h) no_keys, no_keys⟩
  | _, _, _, _, .cons h _ h' => ⟨evs_cons (curlyTarget h) (curlyTargetList h').1, (curlyTargetList h').2⟩
  | _, _, _, _, .rest h _ h' _ => ⟨evs_cons (curlyTarget h) no_keys, evs_cons (curlyTarget h') no_keys⟩

theorem curlyLhs {S : List Cell → Ast.Expr → List Cell → Prop} (hS : ∀ {r e r'}, S r e r' → EC e) {r l ls x r'}
    (h : LhsAt env fn S r l ls x r') : ∀ e ∈ l.toList ++ ls ++ x.toList, EC e := by
  cases h with
  | one _ h => exact evs_cons (hS h) no_keys
  | list _ h =>
    obtain ⟨h1, h2⟩ := curlyTargetList h
    intro e he
    simp only [Option.toList_none, List.nil_append, List.mem_append] at he
    rcases he with he | he
    · exact h1 e he
    · exact h2 e he

theorem curlyTargets : ∀ {r es r'}, Targets env fn r es r' → ∀ e ∈ es, EC e
  | _, _, _, .nil _ _ => no_keys
  | _, _, _, .cons _ _ h h' => evs_cons (curlyTarget h) (curlyTargets h')

theorem curlyLock {r es r'} (h : LockArgs env fn r es r') : ∀ e ∈ es, EC e := by
  cases h with
  | mk h h' => exact evs_cons (partsGram h) (curlyTargets h')

theorem curlyExprs : ∀ {r es r'}, Exprs env fn r es r' → ∀ e ∈ es, EC e
  | _, _, _, .nil _ _ => no_keys
  | _, _, _, .cons _ _ h h' => evs_cons (partsGram h) (curlyExprs h')

theorem curlyParam {used d r i ds r'} (h : Param env fn used d r i ds r') : ∀ e ∈ ds, EC e := by
  cases h with
  | plain => exact no_keys
  | default _ _ _ _ _ h => exact evs_cons (partsGram h) no_keys

theorem curlyParams : ∀ {used d r is ds r'}, ParamList env fn used d r is ds r' → ∀ e ∈ ds, EC e
  | _, _, _, _, _, _, .dots _ _ _ => no_keys
  | _, _, _, _, _, _, .last h _ => curlyParam h
  | _, _, _, _, _, _, .comma h _ _ _ => curlyParam h
  | _, _, _, _, _, _, .cons h _ _ _ h' => by
    intro e he
    rcases List.mem_append.1 he with he | he
    · exact curlyParam h e he
    · exact curlyParams h' e he

theorem curlyFunc {r a r'} (h : FuncArgs env fn r a r') : ∀ e ∈ a.1 :: a.2.2.1, EC e := by
  obtain ⟨e, is, ds, at_⟩ := a
  cases h with
  | mk _ _ _ h1 _ _ _ h2 _ =>
    refine evs_cons (curlyLvChain h1.1.1) ?_
    cases h2 with
    | none => exact no_keys
    | some _ h => exact curlyParams h

theorem curlyFor {r a r'} (h : ForArgs env fn r a r') : ∀ e ∈ a.1.toList ++ a.2.1 ++ a.2.2.1.toList ++ [a.2.2.2], EC e := by
  cases h with
  | mk h1 _ _ h2 =>
    intro e he
    rcases List.mem_append.1 he with he | he
    · exact curlyLhs curlyTarget h1 e he
    · exact evs_cons (partsGram h2) no_keys e he

/-- All names with braces in the statement are right. -/
abbrev SC (_ : List Kind) (s : Ast.Stmt) : Prop := ∀ e ∈ exprsOf s, EC e

theorem sc_leaf {ctx : List Kind} {s : Ast.Stmt} (h : SC ctx s) (hs : subStmts s = []) : AllS SC ctx s :=
  .mk ctx s h fun x hx => absurd hx (by rw [hs]; simp)

theorem sc_one {s : Ast.Stmt} (h : SC [] s) (hs : subStmts s = []) : ∀ x ∈ [s], ∀ ctx, AllS SC ctx x := by
  intro x hx ctx
  cases List.mem_singleton.1 hx
  exact sc_leaf h hs

theorem sc_nil : ∀ x ∈ ([] : List Ast.Stmt), ∀ ctx, AllS SC ctx x := fun _ h => absurd h (by simp)

theorem sc_append {a b : List Ast.Stmt} (ha : ∀ x ∈ a, ∀ ctx, AllS SC ctx x) (hb : ∀ x ∈ b, ∀ ctx, AllS SC ctx x) :
    ∀ x ∈ a ++ b, ∀ ctx, AllS SC ctx x := by
  intro x hx
  rcases List.mem_append.1 hx with hx | hx
  · exact ha x hx
  · exact hb x hx

theorem sc_comment {r s r'} (h : Comment env fn r s r') : ∀ x ∈ [s], ∀ ctx, AllS SC ctx x := by
  cases h with
  | mk => exact sc_one no_keys rfl

theorem sc_trail {r cm r'} (h : Trail env fn r cm r') : ∀ x ∈ cm, ∀ ctx, AllS SC ctx x := by
  cases h with
  | eof => exact sc_nil
  | eol => exact sc_nil
  | bar => exact sc_nil
  | comment _ h => exact sc_comment h

theorem curlyLetLeft {S : List Cell → Ast.Expr → List Cell → Prop} (hS : ∀ {r e r'}, S r e r' → EC e) {r l ls x r'}
    (h : LetLeft env fn S r l ls x r') : ∀ e ∈ l.toList ++ ls ++ x.toList, EC e := by
  obtain ⟨_, _, _, _, h, _⟩ := h
  exact curlyLhs hS h

theorem evs_append {l m : List Ast.Expr} (h : ∀ e ∈ l, EC e) (h' : ∀ e ∈ m, EC e) : ∀ e ∈ l ++ m, EC e := by
  intro e he
  rcases List.mem_append.1 he with he | he
  · exact h e he
  · exact h' e he

theorem sc_simple {cx r0 ra ea c r xs r'} (h : Spec.Simple env fn cx r0 ra ea c r xs r') : ∀ x ∈ xs, ∀ ctx, AllS SC ctx x := by
  cases h with
  | raw => exact sc_one no_keys rfl
  | funcListing => exact sc_one no_keys rfl
  | delfunction _ h => exact sc_one (evs_cons (curlyLvChain h.1.1) no_keys) rfl
  | return_ _ _ _ _ h => exact sc_one (evs_cons (partsGram h) no_keys) rfl
  | returnNone => exact sc_one no_keys rfl
  | call _ _ _ h => exact sc_one (evs_cons (partsGram h) no_keys) rfl
  | letListing => exact sc_one no_keys rfl
  | let_ _ h _ _ _ h' => exact sc_one (evs_append (curlyLetLeft curlyTarget h) (evs_cons (partsGram h') no_keys)) rfl
  | heredoc _ h _ _ ht _ =>
    refine sc_append (sc_trail ht) (sc_one (evs_append (curlyLetLeft curlyTarget h) (evs_cons (ev trivial ?_ no_keys) no_keys)) rfl)
    exact evs_append curly_strs curly_strs
  | constListing => exact sc_one no_keys rfl
  | const_ _ h _ h' =>
    exact sc_one (evs_append (curlyLetLeft (fun h => curlyTarget h.1) h) (evs_cons (partsGram h') no_keys)) rfl
  | unlet _ h => exact sc_one (curlyLock h) rfl
  | lockvar _ _ h => exact sc_one (curlyLock h) rfl
  | unlockvar _ _ h => exact sc_one (curlyLock h) rfl
  | continue_ => exact sc_one no_keys rfl
  | break_ => exact sc_one no_keys rfl
  | throw _ h => exact sc_one (evs_cons (partsGram h) no_keys) rfl
  | eval _ h => exact sc_one (evs_cons (partsGram h) no_keys) rfl
  | echo _ h => exact sc_one (curlyExprs h) rfl
  | echohl => exact sc_one no_keys rfl
  | execute _ h => exact sc_one (curlyExprs h) rfl

/-- What opens a block: its expressions and the comment after it. -/
theorem sc_opens {α : Type} {n : Str} {A : List Cell → α → List Cell → Prop} {used r ea a cm used' r'}
    (h : Spec.Opens nv env fn n A used r ea a cm used' r') : (∃ r1 r2, A r1 a r2) ∧ ∀ x ∈ cm, ∀ ctx, AllS SC ctx x := by
  obtain ⟨_, _, _, r1, r2, _, _, h1, h2⟩ := h
  exact ⟨⟨r1, r2, h1⟩, sc_trail h2⟩

theorem sc_block {s : Ast.Stmt} (h : ∀ e ∈ exprsOf s, EC e) (hs : ∀ x ∈ subStmts s, ∀ ctx, AllS SC ctx x) (ctx : List Kind) :
    AllS SC ctx s := .mk ctx s h fun x hx => hs x hx _

theorem sc_cons {x : Ast.Stmt} {l : List Ast.Stmt} (h : ∀ ctx, AllS SC ctx x) (h' : ∀ x ∈ l, ∀ ctx, AllS SC ctx x) :
    ∀ y ∈ x :: l, ∀ ctx, AllS SC ctx y := by
  intro y hy
  rcases List.mem_cons.1 hy with rfl | hy
  · exact h
  · exact h' y hy

mutual

theorem scBody : ∀ {cx used r ss used' r'}, Body nv env fn cx used r ss used' r' → ∀ x ∈ ss, ∀ ctx, AllS SC ctx x
  | _, _, _, _, _, _, .nil => sc_nil
  | _, _, _, _, _, _, .shebang h _ _ _ => scBody h
  | _, _, _, _, _, _, .empty h _ _ => scBody h
  | _, _, _, _, _, _, .comment h _ h' => sc_append (scBody h) (sc_comment h')
  | _, _, _, _, _, _, .noCommand h _ _ _ h' => sc_append (sc_append (scBody h) (by
      split
      · exact sc_nil
      · exact sc_one no_keys rfl)) (sc_trail h')
  | _, _, _, _, _, _, .simple h _ h1 h2 => sc_append (sc_append (scBody h) (sc_simple h1)) (sc_trail h2)
  | _, _, _, _, _, _, .block h h1 h2 => sc_append (sc_append (scBody h) (sc_cons (scBlock h1) sc_nil)) (sc_trail h2)

theorem scBlock : ∀ {cx used r s used' r'}, Block nv env fn cx used r s used' r' → ∀ ctx, AllS SC ctx s
  | _, _, _, _, _, _, .function h1 h2 _ => by
    obtain ⟨⟨r1, r2, h3⟩, h4⟩ := sc_opens h1
    exact sc_block (curlyFunc h3) (sc_append h4 (scBody h2))
  | _, _, _, _, _, _, .while_ h1 h2 _ => by
    obtain ⟨⟨r1, r2, h3⟩, h4⟩ := sc_opens h1
    exact sc_block (evs_cons (partsGram h3) no_keys) (sc_append h4 (scBody h2))
  | _, _, _, _, _, _, .for_ h1 h2 _ => by
    obtain ⟨⟨r1, r2, h3⟩, h4⟩ := sc_opens h1
    exact sc_block (curlyFor h3) (sc_append h4 (scBody h2))
  | _, _, _, _, _, _, .if_ h1 _ => by
    obtain ⟨h2, h3, h4⟩ := scIf h1
    exact sc_block (evs_cons h2 no_keys) (by simp only [subStmts, Option.toList_none, List.append_nil]; exact sc_append h3 h4)
  | _, _, _, _, _, _, .ifElse h1 h5 h6 _ => by
    obtain ⟨h2, h3, h4⟩ := scIf h1
    obtain ⟨_, h7⟩ := sc_opens h5
    exact sc_block (evs_cons h2 no_keys) (sc_append (sc_append h3 h4)
      (sc_cons (sc_block no_keys (sc_append h7 (scBody h6))) sc_nil))
  | _, _, _, _, _, _, .try_ h1 _ => by
    obtain ⟨h3, h4⟩ := scTry h1
    exact sc_block no_keys (by simp only [subStmts, Option.toList_none, List.append_nil]; exact sc_append h3 h4)
  | _, _, _, _, _, _, .tryFinally h1 h5 h6 _ => by
    obtain ⟨h3, h4⟩ := scTry h1
    obtain ⟨_, h7⟩ := sc_opens h5
    exact sc_block no_keys (sc_append (sc_append h3 h4)
      (sc_cons (sc_block no_keys (sc_append h7 (scBody h6))) sc_nil))

theorem scIf : ∀ {cx used r ea ss x eis used' r'}, IfPart nv env fn cx used r ea ss x eis used' r' →
    EC x ∧ (∀ x ∈ ss, ∀ ctx, AllS SC ctx x) ∧ ∀ x ∈ eis, ∀ ctx, AllS SC ctx x
  | _, _, _, _, _, _, _, _, _, .if_ h1 h2 => by
    obtain ⟨⟨r1, r2, h3⟩, h4⟩ := sc_opens h1
    exact ⟨partsGram h3, sc_append h4 (scBody h2), sc_nil⟩
  | _, _, _, _, _, _, _, _, _, .elseif h h1 h2 => by
    obtain ⟨a1, a2, a3⟩ := scIf h
    obtain ⟨⟨r1, r2, h3⟩, h4⟩ := sc_opens h1
    exact ⟨a1, a2, sc_append a3 (sc_cons (sc_block (evs_cons (partsGram h3) no_keys) (sc_append h4 (scBody h2))) sc_nil)⟩

theorem scTry : ∀ {cx used r ea ss cs used' r'}, TryPart nv env fn cx used r ea ss cs used' r' →
    (∀ x ∈ ss, ∀ ctx, AllS SC ctx x) ∧ ∀ x ∈ cs, ∀ ctx, AllS SC ctx x
  | _, _, _, _, _, _, _, _, .try_ h1 h2 => by
    obtain ⟨_, h4⟩ := sc_opens h1
    exact ⟨sc_append h4 (scBody h2), sc_nil⟩
  | _, _, _, _, _, _, _, _, .catch_ h h1 h2 => by
    obtain ⟨a2, a3⟩ := scTry h
    obtain ⟨_, h4⟩ := sc_opens h1
    exact ⟨a2, sc_append a3 (sc_cons (sc_block no_keys (sc_append h4 (scBody h2))) sc_nil)⟩

end

theorem curly_file {f : Ast.File} (h : Script nv env fn f) : AllF SC f := by
  obtain ⟨used, h, _⟩ := h
  exact fun s hs => scBody h s hs []

end Viml.Readable
