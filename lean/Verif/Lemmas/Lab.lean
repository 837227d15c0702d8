/-
Relabelling of positions.

A relabelling changes line, column and byte offset of every position but not its index in the
buffer.  Parser programs look at the index of a position only, so they commute with relabelling:
running a program on a relabelled buffer gives the relabelled result (`LSim`).
-/
import Verif.Lemmas.LabAttr
import Verif.Model.VimLParser

namespace Viml
open Prog

/-- A change of positions that keeps the index. -/
structure Relab where
  f : Pos → Pos
  idx : ∀ q, (f q).i = q.i
  dflt : f default = default

/-- Data that may contain positions. -/
class Lab (α : Type) where
  lab : Relab → α → α

export Lab (lab)

attribute [labs] Relab.idx Relab.dflt

variable {φ : Relab}

/-! ### Data without positions -/

instance : Lab Str := ⟨fun _ s => s⟩
instance : Lab (List Str) := ⟨fun _ s => s⟩
instance : Lab Char := ⟨fun _ s => s⟩
instance : Lab Bool := ⟨fun _ s => s⟩
instance : Lab Unit := ⟨fun _ s => s⟩
instance : Lab Nat := ⟨fun _ s => s⟩
instance : Lab Int := ⟨fun _ s => s⟩
instance : Lab Sym := ⟨fun _ s => s⟩
instance : Lab Cmd := ⟨fun _ s => s⟩
instance : Lab (Option Cmd) := ⟨fun _ s => s⟩
instance : Lab (List (Str × Option Cmd)) := ⟨fun _ s => s⟩
instance : Lab (List Modifier) := ⟨fun _ s => s⟩
instance : Lab FuncAttr := ⟨fun _ s => s⟩

@[labs] theorem lab_str (x : Str) : lab φ x = x := rfl
@[labs] theorem lab_strs (x : List Str) : lab φ x = x := rfl
@[labs] theorem lab_char (x : Char) : lab φ x = x := rfl
@[labs] theorem lab_bool (x : Bool) : lab φ x = x := rfl
@[labs] theorem lab_unit (x : Unit) : lab φ x = x := rfl
@[labs] theorem lab_nat (x : Nat) : lab φ x = x := rfl
@[labs] theorem lab_int (x : Int) : lab φ x = x := rfl
@[labs] theorem lab_sym (x : Sym) : lab φ x = x := rfl
@[labs] theorem lab_cmd (x : Cmd) : lab φ x = x := rfl
@[labs] theorem lab_ocmd (x : Option Cmd) : lab φ x = x := rfl
@[labs] theorem lab_cache (x : List (Str × Option Cmd)) : lab φ x = x := rfl
@[labs] theorem lab_mods (x : List Modifier) : lab φ x = x := rfl
@[labs] theorem lab_attr (x : FuncAttr) : lab φ x = x := rfl

/-! ### Positions, tokens, cells -/

instance : Lab Pos := ⟨Relab.f⟩
@[labs] theorem lab_pos_i (q : Pos) : (lab φ q).i = q.i := φ.idx q
@[labs] theorem lab_default : lab φ (default : Pos) = default := φ.dflt

instance (priority := low) {α : Type} [Lab α] : Lab (Option α) := ⟨fun φ => Option.map (lab φ)⟩
instance (priority := low) {α : Type} [Lab α] : Lab (List α) := ⟨fun φ => List.map (lab φ)⟩
instance (priority := low) {α β : Type} [Lab α] [Lab β] : Lab (α × β) := ⟨fun φ x => (lab φ x.1, lab φ x.2)⟩
instance {α β : Type} [Lab α] [Lab β] : Lab (α ⊕ β) :=
  ⟨fun φ x => match x with | .inl a => .inl (lab φ a) | .inr b => .inr (lab φ b)⟩

section
variable {α β : Type} [Lab α] [Lab β]
@[labs] theorem lab_none : lab φ (none : Option α) = none := rfl
@[labs] theorem lab_some (a : α) : lab φ (some a) = some (lab φ a) := rfl
@[labs] theorem lab_nil : lab φ ([] : List α) = [] := rfl
@[labs] theorem lab_cons (a : α) (l : List α) : lab φ (a :: l) = lab φ a :: lab φ l := rfl
@[labs] theorem lab_append (l m : List α) : lab φ (l ++ m) = lab φ l ++ lab φ m :=
  List.map_append
@[labs] theorem lab_length (l : List α) : (lab φ l).length = l.length := List.length_map _
@[labs] theorem lab_isEmpty (l : List α) : (lab φ l).isEmpty = l.isEmpty := by cases l <;> rfl
theorem lab_drop (l : List α) (n : Nat) : (lab φ l).drop n = lab φ (l.drop n) :=
  (List.map_drop ..).symm
theorem lab_take (l : List α) (n : Nat) : (lab φ l).take n = lab φ (l.take n) :=
  (List.map_take ..).symm
@[labs] theorem lab_pair (a : α) (b : β) : lab φ (a, b) = (lab φ a, lab φ b) := rfl
@[labs] theorem lab_fst (x : α × β) : (lab φ x).1 = lab φ x.1 := rfl
@[labs] theorem lab_snd (x : α × β) : (lab φ x).2 = lab φ x.2 := rfl
@[labs] theorem lab_inl (a : α) : lab φ (.inl a : α ⊕ β) = .inl (lab φ a) := rfl
@[labs] theorem lab_inr (b : β) : lab φ (.inr b : α ⊕ β) = .inr (lab φ b) := rfl
@[labs] theorem lab_ite (c : Prop) [Decidable c] (a b : α) :
    lab φ (if c then a else b) = if c then lab φ a else lab φ b := by split <;> rfl
end

instance : Lab Token := ⟨fun φ t => ⟨t.ty, t.value, lab φ t.pos⟩⟩
@[labs] theorem lab_tok_ty (t : Token) : (lab φ t).ty = t.ty := rfl
@[labs] theorem lab_tok_value (t : Token) : (lab φ t).value = t.value := rfl
@[labs] theorem lab_tok_pos (t : Token) : (lab φ t).pos = lab φ t.pos := rfl
@[labs] theorem lab_tok_mk (ty : TT) (v : Str) (q : Pos) : lab φ (⟨ty, v, q⟩ : Token) = ⟨ty, v, lab φ q⟩ := rfl

instance : Lab Cell := ⟨fun φ c => ⟨c.c, lab φ c.pos⟩⟩
@[labs] theorem lab_cell_c (c : Cell) : (lab φ c).c = c.c := rfl
@[labs] theorem lab_cell_pos (c : Cell) : (lab φ c).pos = lab φ c.pos := rfl
@[labs] theorem lab_cell_sym (c : Cell) : (lab φ c).sym = c.sym := rfl

instance : Lab Env := ⟨fun φ e => ⟨lab φ e.buf, lab φ e.eof⟩⟩
instance : Lab Fail := ⟨fun φ e => match e with
  | .err m q => .err m (lab φ q)
  | .num => .num
  | .crash => .crash
  | .fuel => .fuel⟩
instance {α : Type} [Lab α] : Lab (Res α) := ⟨fun φ x => match x with
  | .ok a r => .ok (lab φ a) (lab φ r)
  | .fail e => .fail (lab φ e)⟩

/-! ### Nodes -/

mutual
def VExpr.labF (φ : Relab) : VExpr → VExpr
  | .ternary q c l r => .ternary (lab φ q) (c.labF φ) (l.labF φ) (r.labF φ)
  | .binary q t l r => .binary (lab φ q) t (l.labF φ) (r.labF φ)
  | .unary q t l => .unary (lab φ q) t (l.labF φ)
  | .subscript q l r => .subscript (lab φ q) (l.labF φ) (r.labF φ)
  | .slice q l lo hi => .slice (lab φ q) (l.labF φ) (labFO φ lo) (labFO φ hi)
  | .method q l r => .method (lab φ q) (l.labF φ) (r.labF φ)
  | .call q l as => .call (lab φ q) (l.labF φ) (labFL φ as)
  | .dot q l rq n => .dot (lab φ q) (l.labF φ) (lab φ rq) n
  | .atom q t v => .atom (lab φ q) t v
  | .list q vs => .list (lab φ q) (labFL φ vs)
  | .dict q kvs => .dict (lab φ q) (labFP φ kvs)
  | .curlyname q ps => .curlyname (lab φ q) (labFL φ ps)
  | .curlyexpr q e => .curlyexpr (lab φ q) (e.labF φ)
  | .lambda q ps e => .lambda (lab φ q) (lab φ ps) (e.labF φ)
  | .paren q e => .paren (lab φ q) (e.labF φ)
  | .heredoc q rl op b => .heredoc (lab φ q) (lab φ rl) op (lab φ b)
def VExpr.labFO (φ : Relab) : Option VExpr → Option VExpr
  | none => none
  | some e => some (e.labF φ)
def VExpr.labFL (φ : Relab) : List VExpr → List VExpr
  | [] => []
  | e :: es => e.labF φ :: labFL φ es
def VExpr.labFP (φ : Relab) : List (VExpr × VExpr) → List (VExpr × VExpr)
  | [] => []
  | (k, v) :: es => (k.labF φ, v.labF φ) :: labFP φ es
end

instance : Lab VExpr := ⟨VExpr.labF⟩

theorem labFO_eq (o : Option VExpr) : VExpr.labFO φ o = lab φ o := by cases o <;> rfl
theorem labFL_eq (l : List VExpr) : VExpr.labFL φ l = lab φ l := by
  induction l with
  | nil => rfl
  | cons a l ih => rw [VExpr.labFL, ih]; rfl
theorem labFP_eq (l : List (VExpr × VExpr)) : VExpr.labFP φ l = lab φ l := by
  induction l with
  | nil => rfl
  | cons a l ih => rw [VExpr.labFP, ih]; rfl

section
variable (q rq : Pos) (c l r e : VExpr) (as : List VExpr) (ps rl b : List (Pos × Str)) (v op : Str)
@[labs] theorem lab_ternary : lab φ (.ternary q c l r : VExpr) = .ternary (lab φ q) (lab φ c) (lab φ l) (lab φ r) := rfl
@[labs] theorem lab_binary {t : BinTy} : lab φ (.binary q t l r : VExpr) = .binary (lab φ q) t (lab φ l) (lab φ r) := rfl
@[labs] theorem lab_unary {t : UnTy} : lab φ (.unary q t l : VExpr) = .unary (lab φ q) t (lab φ l) := rfl
@[labs] theorem lab_subscript : lab φ (.subscript q l r : VExpr) = .subscript (lab φ q) (lab φ l) (lab φ r) := rfl
@[labs] theorem lab_slice {lo hi : Option VExpr} :
    lab φ (.slice q l lo hi : VExpr) = .slice (lab φ q) (lab φ l) (lab φ lo) (lab φ hi) := by
  rw [← labFO_eq, ← labFO_eq]; rfl
@[labs] theorem lab_method : lab φ (.method q l r : VExpr) = .method (lab φ q) (lab φ l) (lab φ r) := rfl
@[labs] theorem lab_call : lab φ (.call q l as : VExpr) = .call (lab φ q) (lab φ l) (lab φ as) := by
  rw [← labFL_eq]; rfl
@[labs] theorem lab_dot : lab φ (.dot q l rq v : VExpr) = .dot (lab φ q) (lab φ l) (lab φ rq) v := rfl
@[labs] theorem lab_atom {t : AtomTy} : lab φ (.atom q t v : VExpr) = .atom (lab φ q) t v := rfl
@[labs] theorem lab_list : lab φ (.list q as : VExpr) = .list (lab φ q) (lab φ as) := by
  rw [← labFL_eq]; rfl
@[labs] theorem lab_dict {kvs : List (VExpr × VExpr)} :
    lab φ (.dict q kvs : VExpr) = .dict (lab φ q) (lab φ kvs) := by
  rw [← labFP_eq]; rfl
@[labs] theorem lab_curlyname : lab φ (.curlyname q as : VExpr) = .curlyname (lab φ q) (lab φ as) := by
  rw [← labFL_eq]; rfl
@[labs] theorem lab_curlyexpr : lab φ (.curlyexpr q e : VExpr) = .curlyexpr (lab φ q) (lab φ e) := rfl
@[labs] theorem lab_lambda : lab φ (.lambda q ps e : VExpr) = .lambda (lab φ q) (lab φ ps) (lab φ e) := rfl
@[labs] theorem lab_paren : lab φ (.paren q e : VExpr) = .paren (lab φ q) (lab φ e) := rfl
@[labs] theorem lab_heredoc :
    lab φ (.heredoc q rl op b : VExpr) = .heredoc (lab φ q) (lab φ rl) op (lab φ b) := rfl
@[labs] theorem lab_expr_pos : (lab φ e).pos = lab φ e.pos := by
  cases e <;> simp only [labs, VExpr.pos]
end

instance : Lab Lhs := ⟨fun φ l => ⟨lab φ l.left, lab φ l.list, lab φ l.rest⟩⟩
instance : Lab ExArg := ⟨fun φ ea =>
  { ea with linepos := lab φ ea.linepos, cmdpos := lab φ ea.cmdpos, argpos := lab φ ea.argpos }⟩
instance : Lab EndNode := ⟨fun φ e => ⟨lab φ e.pos, lab φ e.ea⟩⟩

mutual
def VStmt.labF (φ : Relab) : VStmt → VStmt
  | .comment q s => .comment (lab φ q) s
  | .excmd q ea s => .excmd (lab φ q) (lab φ ea) s
  | .function q ea b l rl da at_ e =>
    .function (lab φ q) (lab φ ea) (labFL φ b) (lab φ l) (lab φ rl) (lab φ da) at_ (lab φ e)
  | .delfunction q ea l => .delfunction (lab φ q) (lab φ ea) (lab φ l)
  | .return_ q ea l => .return_ (lab φ q) (lab φ ea) (lab φ l)
  | .excall q ea l => .excall (lab φ q) (lab φ ea) (lab φ l)
  | .let_ q ea op l r => .let_ (lab φ q) (lab φ ea) op (lab φ l) (lab φ r)
  | .const_ q ea op l r => .const_ (lab φ q) (lab φ ea) op (lab φ l) (lab φ r)
  | .unlet q ea l => .unlet (lab φ q) (lab φ ea) (lab φ l)
  | .lockvar q ea d l => .lockvar (lab φ q) (lab φ ea) d (lab φ l)
  | .unlockvar q ea d l => .unlockvar (lab φ q) (lab φ ea) d (lab φ l)
  | .if_ q ea b c ei el e =>
    .if_ (lab φ q) (lab φ ea) (labFL φ b) (lab φ c) (labFL φ ei) (labFO φ el) (lab φ e)
  | .elseif q ea b c => .elseif (lab φ q) (lab φ ea) (labFL φ b) (lab φ c)
  | .else_ q ea b => .else_ (lab φ q) (lab φ ea) (labFL φ b)
  | .while_ q ea b c e => .while_ (lab φ q) (lab φ ea) (labFL φ b) (lab φ c) (lab φ e)
  | .for_ q ea b l r e => .for_ (lab φ q) (lab φ ea) (labFL φ b) (lab φ l) (lab φ r) (lab φ e)
  | .continue_ q ea => .continue_ (lab φ q) (lab φ ea)
  | .break_ q ea => .break_ (lab φ q) (lab φ ea)
  | .try_ q ea b cs fi e =>
    .try_ (lab φ q) (lab φ ea) (labFL φ b) (labFL φ cs) (labFO φ fi) (lab φ e)
  | .catch_ q ea b pt => .catch_ (lab φ q) (lab φ ea) (labFL φ b) pt
  | .finally_ q ea b => .finally_ (lab φ q) (lab φ ea) (labFL φ b)
  | .throw q ea e => .throw (lab φ q) (lab φ ea) (lab φ e)
  | .eval q ea e => .eval (lab φ q) (lab φ ea) (lab φ e)
  | .echo ty q ea l => .echo ty (lab φ q) (lab φ ea) (lab φ l)
  | .echohl q ea s => .echohl (lab φ q) (lab φ ea) s
  | .execute q ea l => .execute (lab φ q) (lab φ ea) (lab φ l)
def VStmt.labFO (φ : Relab) : Option VStmt → Option VStmt
  | none => none
  | some e => some (e.labF φ)
def VStmt.labFL (φ : Relab) : List VStmt → List VStmt
  | [] => []
  | e :: es => e.labF φ :: labFL φ es
end

instance : Lab VStmt := ⟨VStmt.labF⟩

theorem labSO_eq (o : Option VStmt) : VStmt.labFO φ o = lab φ o := by cases o <;> rfl
theorem labSL_eq (l : List VStmt) : VStmt.labFL φ l = lab φ l := by
  induction l with
  | nil => rfl
  | cons a l ih => rw [VStmt.labFL, ih]; rfl

section
variable (q : Pos) (ea : ExArg) (c l r e : VExpr) (o : Option VExpr) (as da : List VExpr)
  (rl : List (Pos × Str)) (v op : Str) (lh : Lhs) (b ei : List VStmt) (el : Option VStmt)
  (en : Option EndNode) (d : Nat)
@[labs] theorem labS_comment : lab φ (.comment q v : VStmt) = .comment (lab φ q) v := rfl
@[labs] theorem labS_excmd : lab φ (.excmd q ea v : VStmt) = .excmd (lab φ q) (lab φ ea) v := rfl
@[labs] theorem labS_function {a : FuncAttr} : lab φ (.function q ea b l rl da a en : VStmt) =
    .function (lab φ q) (lab φ ea) (lab φ b) (lab φ l) (lab φ rl) (lab φ da) a (lab φ en) := by
  rw [← labSL_eq]; rfl
@[labs] theorem labS_delfunction : lab φ (.delfunction q ea l : VStmt) = .delfunction (lab φ q) (lab φ ea) (lab φ l) := rfl
@[labs] theorem labS_return : lab φ (.return_ q ea o : VStmt) = .return_ (lab φ q) (lab φ ea) (lab φ o) := rfl
@[labs] theorem labS_excall : lab φ (.excall q ea l : VStmt) = .excall (lab φ q) (lab φ ea) (lab φ l) := rfl
@[labs] theorem labS_let : lab φ (.let_ q ea op lh r : VStmt) = .let_ (lab φ q) (lab φ ea) op (lab φ lh) (lab φ r) := rfl
@[labs] theorem labS_const : lab φ (.const_ q ea op lh r : VStmt) = .const_ (lab φ q) (lab φ ea) op (lab φ lh) (lab φ r) := rfl
@[labs] theorem labS_unlet : lab φ (.unlet q ea as : VStmt) = .unlet (lab φ q) (lab φ ea) (lab φ as) := rfl
@[labs] theorem labS_lockvar : lab φ (.lockvar q ea d as : VStmt) = .lockvar (lab φ q) (lab φ ea) d (lab φ as) := rfl
@[labs] theorem labS_unlockvar : lab φ (.unlockvar q ea d as : VStmt) = .unlockvar (lab φ q) (lab φ ea) d (lab φ as) := rfl
@[labs] theorem labS_if : lab φ (.if_ q ea b c ei el en : VStmt) =
    .if_ (lab φ q) (lab φ ea) (lab φ b) (lab φ c) (lab φ ei) (lab φ el) (lab φ en) := by
  rw [← labSL_eq, ← labSL_eq, ← labSO_eq]; rfl
@[labs] theorem labS_elseif : lab φ (.elseif q ea b c : VStmt) = .elseif (lab φ q) (lab φ ea) (lab φ b) (lab φ c) := by
  rw [← labSL_eq]; rfl
@[labs] theorem labS_else : lab φ (.else_ q ea b : VStmt) = .else_ (lab φ q) (lab φ ea) (lab φ b) := by
  rw [← labSL_eq]; rfl
@[labs] theorem labS_while : lab φ (.while_ q ea b c en : VStmt) =
    .while_ (lab φ q) (lab φ ea) (lab φ b) (lab φ c) (lab φ en) := by
  rw [← labSL_eq]; rfl
@[labs] theorem labS_for : lab φ (.for_ q ea b lh r en : VStmt) =
    .for_ (lab φ q) (lab φ ea) (lab φ b) (lab φ lh) (lab φ r) (lab φ en) := by
  rw [← labSL_eq]; rfl
@[labs] theorem labS_continue : lab φ (.continue_ q ea : VStmt) = .continue_ (lab φ q) (lab φ ea) := rfl
@[labs] theorem labS_break : lab φ (.break_ q ea : VStmt) = .break_ (lab φ q) (lab φ ea) := rfl
@[labs] theorem labS_try : lab φ (.try_ q ea b ei el en : VStmt) =
    .try_ (lab φ q) (lab φ ea) (lab φ b) (lab φ ei) (lab φ el) (lab φ en) := by
  rw [← labSL_eq, ← labSL_eq, ← labSO_eq]; rfl
@[labs] theorem labS_catch : lab φ (.catch_ q ea b v : VStmt) = .catch_ (lab φ q) (lab φ ea) (lab φ b) v := by
  rw [← labSL_eq]; rfl
@[labs] theorem labS_finally : lab φ (.finally_ q ea b : VStmt) = .finally_ (lab φ q) (lab φ ea) (lab φ b) := by
  rw [← labSL_eq]; rfl
@[labs] theorem labS_throw : lab φ (.throw q ea l : VStmt) = .throw (lab φ q) (lab φ ea) (lab φ l) := rfl
@[labs] theorem labS_eval : lab φ (.eval q ea l : VStmt) = .eval (lab φ q) (lab φ ea) (lab φ l) := rfl
@[labs] theorem labS_echo {ty : EchoTy} : lab φ (.echo ty q ea as : VStmt) = .echo ty (lab φ q) (lab φ ea) (lab φ as) := rfl
@[labs] theorem labS_echohl : lab φ (.echohl q ea v : VStmt) = .echohl (lab φ q) (lab φ ea) v := rfl
@[labs] theorem labS_execute : lab φ (.execute q ea as : VStmt) = .execute (lab φ q) (lab φ ea) (lab φ as) := rfl
end

/-! ### Parser state -/

instance : Lab Head := ⟨fun φ h => match h with
  | .toplevel => .toplevel
  | .function q ea l rl da a => .function (lab φ q) (lab φ ea) (lab φ l) (lab φ rl) (lab φ da) a
  | .if_ q ea c => .if_ (lab φ q) (lab φ ea) (lab φ c)
  | .elseif q ea c => .elseif (lab φ q) (lab φ ea) (lab φ c)
  | .else_ q ea => .else_ (lab φ q) (lab φ ea)
  | .while_ q ea c => .while_ (lab φ q) (lab φ ea) (lab φ c)
  | .for_ q ea l r => .for_ (lab φ q) (lab φ ea) (lab φ l) (lab φ r)
  | .try_ q ea => .try_ (lab φ q) (lab φ ea)
  | .catch_ q ea pt => .catch_ (lab φ q) (lab φ ea) pt
  | .finally_ q ea => .finally_ (lab φ q) (lab φ ea)⟩
instance : Lab Frame := ⟨fun φ f =>
  ⟨lab φ f.head, lab φ f.body, lab φ f.elseifs, lab φ f.els, lab φ f.catches, lab φ f.fin⟩⟩
instance : Lab PState := ⟨fun φ s => ⟨s.neovim, lab φ s.cur, lab φ s.stack, s.cache⟩⟩
instance : Lab VFile := ⟨fun φ f => ⟨lab φ f.pos, lab φ f.body⟩⟩
instance : Lab SepSt := ⟨fun φ s => ⟨s.pc, lab φ s.en, lab φ s.nosp⟩⟩
instance : Lab ParamSt := ⟨fun φ s => ⟨lab φ s.rlist, lab φ s.defaults, s.named⟩⟩
instance : Lab LambdaEnd := ⟨fun φ s => match s with
  | .arrow rl => .arrow (lab φ rl)
  | .fallback => .fallback⟩

@[labs] theorem lab_isFunction (h : Head) : (lab φ h).isFunction = h.isFunction := by cases h <;> rfl
@[labs] theorem lab_isIf (h : Head) : (lab φ h).isIf = h.isIf := by cases h <;> rfl
@[labs] theorem lab_isElseif (h : Head) : (lab φ h).isElseif = h.isElseif := by cases h <;> rfl
@[labs] theorem lab_isElse (h : Head) : (lab φ h).isElse = h.isElse := by cases h <;> rfl
@[labs] theorem lab_isWhile (h : Head) : (lab φ h).isWhile = h.isWhile := by cases h <;> rfl
@[labs] theorem lab_isFor (h : Head) : (lab φ h).isFor = h.isFor := by cases h <;> rfl
@[labs] theorem lab_isTry (h : Head) : (lab φ h).isTry = h.isTry := by cases h <;> rfl
@[labs] theorem lab_isCatch (h : Head) : (lab φ h).isCatch = h.isCatch := by cases h <;> rfl
@[labs] theorem lab_isFinally (h : Head) : (lab φ h).isFinally = h.isFinally := by cases h <;> rfl
@[labs] theorem lab_isToplevel (h : Head) : (lab φ h).isToplevel = h.isToplevel := by cases h <;> rfl

@[labs] theorem lab_st_cur (s : PState) : (lab φ s).cur = lab φ s.cur := rfl
@[labs] theorem lab_st_stack (s : PState) : (lab φ s).stack = lab φ s.stack := rfl
@[labs] theorem lab_st_neovim (s : PState) : (lab φ s).neovim = s.neovim := rfl
@[labs] theorem lab_st_cache (s : PState) : (lab φ s).cache = s.cache := rfl
@[labs] theorem lab_fr_head (s : Frame) : (lab φ s).head = lab φ s.head := rfl
@[labs] theorem lab_fr_body (s : Frame) : (lab φ s).body = lab φ s.body := rfl
@[labs] theorem lab_ea_linepos (e : ExArg) : (lab φ e).linepos = lab φ e.linepos := rfl
@[labs] theorem lab_ea_cmdpos (e : ExArg) : (lab φ e).cmdpos = lab φ e.cmdpos := rfl
@[labs] theorem lab_ea_argpos (e : ExArg) : (lab φ e).argpos = lab φ e.argpos := rfl
@[labs] theorem lab_ea_usefilter (e : ExArg) : (lab φ e).usefilter = e.usefilter := rfl
@[labs] theorem lab_ea_forceit (e : ExArg) : (lab φ e).forceit = e.forceit := rfl
@[labs] theorem lab_ea_modifiers (e : ExArg) : (lab φ e).modifiers = e.modifiers := rfl
@[labs] theorem lab_ea_range (e : ExArg) : (lab φ e).range = e.range := rfl
@[labs] theorem lab_ps_rlist (s : ParamSt) : (lab φ s).rlist = lab φ s.rlist := rfl
@[labs] theorem lab_ps_defaults (s : ParamSt) : (lab φ s).defaults = lab φ s.defaults := rfl
@[labs] theorem lab_ps_named (s : ParamSt) : (lab φ s).named = s.named := rfl
@[labs] theorem lab_sep_pc (s : SepSt) : (lab φ s).pc = s.pc := rfl
@[labs] theorem lab_sep_en (s : SepSt) : (lab φ s).en = lab φ s.en := rfl
@[labs] theorem lab_sep_nosp (s : SepSt) : (lab φ s).nosp = lab φ s.nosp := rfl
@[labs] theorem lab_sep_mk (pc : Str) (a b : Pos) : lab φ (⟨pc, a, b⟩ : SepSt) = ⟨pc, lab φ a, lab φ b⟩ := rfl
@[labs] theorem lab_ps_mk (a : List (Pos × Str)) (b : List VExpr) (c : List Str) :
    lab φ (⟨a, b, c⟩ : ParamSt) = ⟨lab φ a, lab φ b, c⟩ := rfl
@[labs] theorem lab_lhs_mk (a c : Option VExpr) (b : List VExpr) :
    lab φ (⟨a, b, c⟩ : Lhs) = ⟨lab φ a, lab φ b, lab φ c⟩ := rfl
@[labs] theorem lab_end_mk (q : Pos) (ea : ExArg) : lab φ (⟨q, ea⟩ : EndNode) = ⟨lab φ q, lab φ ea⟩ := rfl
@[labs] theorem lab_arrow (rl : List (Pos × Str)) : lab φ (LambdaEnd.arrow rl) = .arrow (lab φ rl) := rfl
@[labs] theorem lab_fallback : lab φ LambdaEnd.fallback = .fallback := rfl

theorem lab_close (f : Frame) (e : Option EndNode) :
    (lab φ f).close (lab φ e) = lab φ (f.close e) := by
  obtain ⟨h, b, ei, el, ca, fi⟩ := f
  cases h <;> simp only [Frame.close, labs] <;> rfl

theorem lab_attach (f : Frame) (s : VStmt) : (lab φ f).attach (lab φ s) = lab φ (f.attach s) := by
  obtain ⟨h, b, ei, el, ca, fi⟩ := f
  cases s <;> simp only [labs] <;> simp only [Frame.attach] <;>
    refine Frame.mk.injEq .. ▸ ⟨?_, ?_, ?_, ?_, ?_, ?_⟩ <;>
    first | rfl | (simp only [labs]; done) | (simp only [labs]; rfl)

@[labs] theorem lab_add (s : PState) (n : VStmt) : lab φ (s.add n) = (lab φ s).add (lab φ n) := by
  symm
  refine PState.mk.injEq .. ▸ ⟨rfl, ?_, rfl, rfl⟩
  refine Frame.mk.injEq .. ▸ ⟨rfl, ?_, rfl, rfl, rfl, rfl⟩
  exact (lab_append (φ := φ) s.cur.body [n]).symm

@[labs] theorem lab_push (s : PState) (h : Head) : lab φ (s.push h) = (lab φ s).push (lab φ h) := rfl

section
variable (q : Pos) (ea : ExArg) (l r : VExpr) (lh : Lhs) (rl : List (Pos × Str)) (da : List VExpr) (v : Str)
@[labs] theorem labH_function {a : FuncAttr} : lab φ (Head.function q ea l rl da a) =
    .function (lab φ q) (lab φ ea) (lab φ l) (lab φ rl) (lab φ da) a := rfl
@[labs] theorem labH_if : lab φ (Head.if_ q ea l) = .if_ (lab φ q) (lab φ ea) (lab φ l) := rfl
@[labs] theorem labH_elseif : lab φ (Head.elseif q ea l) = .elseif (lab φ q) (lab φ ea) (lab φ l) := rfl
@[labs] theorem labH_else : lab φ (Head.else_ q ea) = .else_ (lab φ q) (lab φ ea) := rfl
@[labs] theorem labH_while : lab φ (Head.while_ q ea l) = .while_ (lab φ q) (lab φ ea) (lab φ l) := rfl
@[labs] theorem labH_for : lab φ (Head.for_ q ea lh r) = .for_ (lab φ q) (lab φ ea) (lab φ lh) (lab φ r) := rfl
@[labs] theorem labH_try : lab φ (Head.try_ q ea) = .try_ (lab φ q) (lab φ ea) := rfl
@[labs] theorem labH_catch : lab φ (Head.catch_ q ea v) = .catch_ (lab φ q) (lab φ ea) v := rfl
@[labs] theorem labH_finally : lab φ (Head.finally_ q ea) = .finally_ (lab φ q) (lab φ ea) := rfl
end

theorem lab_pop (s : PState) (e : Option EndNode) : (lab φ s).pop (lab φ e) = lab φ (s.pop e) := by
  obtain ⟨nv, cur, st, ca⟩ := s
  cases st with
  | nil => rfl
  | cons f fs =>
    refine congrArg some (PState.mk.injEq .. ▸ ⟨rfl, ?_, rfl, rfl⟩)
    exact (congrArg _ (lab_close ..)).trans (lab_attach ..)

theorem lab_collapse (f : Frame) (fs : List Frame) :
    collapse (lab φ f) (lab φ fs) = lab φ (collapse f fs) := by
  induction fs generalizing f with
  | nil => rfl
  | cons g fs ih =>
    show collapse ((lab φ g).attach ((lab φ f).close (lab φ none))) (lab φ fs) = _
    rw [lab_close, lab_attach, ih]; rfl

theorem lab_inContextL (s : PState) (f : Head → Bool) (hf : ∀ h, f (lab φ h) = f h) :
    (lab φ s).inContext f = s.inContext f := by
  show ((lab φ (s.cur :: s.stack)).any fun fr => f fr.head) = (s.cur :: s.stack).any fun fr => f fr.head
  generalize s.cur :: s.stack = l
  induction l with
  | nil => rfl
  | cons a l ih =>
    rw [lab_cons, List.any_cons, List.any_cons, ih]
    exact congrArg (· || _) (hf _)

@[labs] theorem lab_inFunction (s : PState) : (lab φ s).inContext Head.isFunction = s.inContext Head.isFunction :=
  lab_inContextL s _ lab_isFunction
@[labs] theorem lab_inWhile (s : PState) : (lab φ s).inContext Head.isWhile = s.inContext Head.isWhile :=
  lab_inContextL s _ lab_isWhile
@[labs] theorem lab_inFor (s : PState) : (lab φ s).inContext Head.isFor = s.inContext Head.isFor :=
  lab_inContextL s _ lab_isFor

/-! ### Programs -/

/-- The program `m'` does on relabelled input what `m` does on the input itself. -/
class LSim {α : Type} [Lab α] (φ : Relab) (m m' : Prog α) : Prop where
  h : ∀ (T : Env → List Cell → Res Token), (∀ env r, T (lab φ env) (lab φ r) = lab φ (T env r)) →
    ∀ env r, m'.runWith T (lab φ env) (lab φ r) = lab φ (m.runWith T env r)

section
variable {α β σ : Type} [Lab α] [Lab β] [Lab σ]

theorem sim_pure {a a' : α} (h : a' = lab φ a) : LSim φ (pure a : Prog α) (pure a') :=
  ⟨fun _ _ _ _ => by subst h; rfl⟩

theorem sim_fail {e e' : Fail} (h : e' = lab φ e) : LSim φ (.fail e : Prog α) (.fail e') :=
  ⟨fun _ _ _ _ => by subst h; rfl⟩

omit [Lab α] [Lab β] in
theorem runWith_bindL {T : Env → List Cell → Res Token} {env : Env} {m : Prog α} {f : α → Prog β} {r : List Cell} :
    (m >>= f).runWith T env r = match m.runWith T env r with
      | .ok a r' => (f a).runWith T env r'
      | .fail e => .fail e := by
  show (m.bind f).runWith T env r = _
  induction m generalizing r with
  | ret a => rfl
  | fail e => rfl
  | ask k ih => exact ih _
  | tell k ih => exact ih _
  | seek s k ih => exact ih
  | tok k ih =>
    simp only [Prog.bind, runWith]
    cases T env r with
    | ok t r' => exact ih _
    | fail e => rfl

theorem sim_bind {m m' : Prog α} {f f' : α → Prog β} (hm : LSim φ m m')
    (hf : ∀ a, LSim φ (f a) (f' (lab φ a))) : LSim φ (m >>= f) (m' >>= f') := by
  refine ⟨fun T hT env r => ?_⟩
  rw [runWith_bindL, runWith_bindL, hm.h T hT]
  cases m.runWith T env r with
  | ok a r' => exact (hf a).h T hT env r'
  | fail e => rfl

theorem sim_tell {k k' : List Cell → Prog α} (h : ∀ r, LSim φ (k r) (k' (lab φ r))) :
    LSim φ (.tell k) (.tell k') := ⟨fun T hT env r => (h r).h T hT env r⟩

theorem sim_ask {k k' : Env → Prog α} (h : ∀ e, LSim φ (k e) (k' (lab φ e))) :
    LSim φ (.ask k) (.ask k') := ⟨fun T hT env r => (h env).h T hT env r⟩

theorem sim_seek {s s' : List Cell} {k k' : Prog α} (hs : s' = lab φ s) (h : LSim φ k k') :
    LSim φ (.seek s k) (.seek s' k') := by
  subst hs
  exact ⟨fun T hT env _ => h.h T hT env s⟩

theorem sim_ite {c c' : Prop} [Decidable c] [Decidable c'] {a a' b b' : Prog α} (hc : c' ↔ c)
    (ha : LSim φ a a') (hb : LSim φ b b') : LSim φ (if c then a else b) (if c' then a' else b') := by
  by_cases h : c
  · rw [if_pos h, if_pos (hc.2 h)]; exact ha
  · rw [if_neg h, if_neg (mt hc.1 h)]; exact hb

theorem sim_loopN {b b' : σ → Prog (σ ⊕ β)} (h : ∀ s, LSim φ (b s) (b' (lab φ s))) :
    ∀ n s, LSim φ (loopN b n s) (loopN b' n (lab φ s))
  | 0, _ => sim_fail rfl
  | n + 1, s => sim_bind (h s) fun x => by
    cases x with
    | inl s' => exact sim_loopN h n s'
    | inr b => exact sim_pure rfl

theorem sim_loop {b b' : σ → Prog (σ ⊕ β)} {s s' : σ} (hs : s' = lab φ s)
    (h : ∀ s, LSim φ (b s) (b' (lab φ s))) : LSim φ (loop b s) (loop b' s') := by
  subst hs
  refine sim_tell fun r => ?_
  rw [lab_length]
  exact sim_loopN h _ _

instance : LSim φ (.fail .crash : Prog α) (.fail .crash) := sim_fail rfl
instance : LSim φ (.fail .fuel : Prog α) (.fail .fuel) := sim_fail rfl
instance : LSim φ (.fail .num : Prog α) (.fail .num) := sim_fail rfl
instance : LSim φ tell tell := sim_tell fun _ => sim_pure rfl
instance {s : List Cell} : LSim φ (seekSet s) (seekSet (lab φ s)) := sim_seek rfl (sim_pure rfl)
instance : LSim φ seekEnd seekEnd := sim_seek rfl (sim_pure rfl)
instance {n : Nat} : LSim φ (seekCur n) (seekCur n) := sim_tell fun r =>
  sim_ite (by rw [lab_length]) (sim_seek (lab_drop ..) (sim_pure rfl)) (sim_fail rfl)
instance {k : Nat} : LSim φ (Viml.p k) (Viml.p k) := sim_tell fun r => by
  cases r with
  | nil => exact sim_pure rfl
  | cons c cs =>
    show LSim φ (match (c :: cs)[k]? with | some d => pure d.sym | none => .fail .crash)
      (match (List.map (lab φ) (c :: cs))[k]? with | some d => pure d.sym | none => .fail .crash)
    rw [List.getElem?_map]
    cases (c :: cs)[k]? with
    | none => exact sim_fail rfl
    | some d => exact sim_pure rfl
instance : LSim φ peek peek := sim_tell fun r => by cases r <;> exact sim_pure rfl
instance : LSim φ get get := sim_tell fun r => by
  cases r with
  | nil => exact sim_pure rfl
  | cons c cs => exact sim_seek rfl (sim_pure rfl)
instance : LSim φ getpos getpos := sim_ask fun env => sim_tell fun r => by
  cases r <;> exact sim_pure rfl
instance {q : Pos} : LSim φ (setpos q) (setpos (lab φ q)) := sim_ask fun env =>
  sim_seek (by rw [lab_pos_i]; exact lab_drop ..) (sim_pure rfl)

theorem cellsText_lab (l : List Cell) : cellsText (lab φ l) = cellsText l := by
  induction l with
  | nil => rfl
  | cons a l ih => exact congrArg (_ :: ·) ih

instance {b e : Pos} : LSim φ (getstr b e) (getstr (lab φ b) (lab φ e)) := sim_ask fun env =>
  sim_pure (by
    rw [lab_pos_i, lab_pos_i]
    refine Eq.trans ?_ (cellsText_lab (φ := φ) _)
    exact congrArg cellsText ((congrArg _ (lab_drop ..)).trans (lab_take ..)))

instance {ea : ExArg} : LSim φ (setpos ea.linepos) (setpos (lab φ ea).linepos) := inferInstanceAs
  (LSim φ (setpos ea.linepos) (setpos (lab φ ea.linepos)))
instance {ea : ExArg} {e : Pos} : LSim φ (getstr ea.linepos e) (getstr (lab φ ea).linepos (lab φ e)) :=
  inferInstanceAs (LSim φ (getstr ea.linepos e) (getstr (lab φ ea.linepos) (lab φ e)))

theorem getnS_lab (n : Nat) (r : List Cell) : getnS n (lab φ r) = ((getnS n r).1, lab φ (getnS n r).2) := by
  induction r generalizing n with
  | nil => cases n <;> rfl
  | cons c r ih =>
    cases n with
    | zero => rfl
    | succ n =>
      simp only [labs, getnS]
      cases c.c with
      | none => rfl
      | some ch => simp only [ih]

theorem spanS_lab (f : Char → Bool) (r : List Cell) :
    spanS f (lab φ r) = ((spanS f r).1, lab φ (spanS f r).2) := by
  induction r with
  | nil => rfl
  | cons c r ih =>
    simp only [labs, spanS]
    cases c.c with
    | none => rfl
    | some ch =>
      dsimp only
      split
      · simp only [ih]
      · rfl

instance {n : Nat} : LSim φ (getn n) (getn n) := sim_tell fun r => by
  rw [getnS_lab]; exact sim_seek rfl (sim_pure rfl)
instance {n : Nat} : LSim φ (peekn n) (peekn n) := sim_tell fun r => by
  rw [getnS_lab]; exact sim_pure rfl
instance : LSim φ getline getline := sim_tell fun r => by
  rw [spanS_lab]; exact sim_seek rfl (sim_pure rfl)
instance : LSim φ peekline peekline := sim_tell fun r => by
  rw [spanS_lab]; exact sim_pure rfl
instance {f : Char → Bool} : LSim φ (readWhile f) (readWhile f) := sim_tell fun r => by
  rw [spanS_lab]; exact sim_seek rfl (sim_pure rfl)
instance : LSim φ skipWhite skipWhite := sim_tell fun r => by
  rw [spanS_lab]; exact sim_seek rfl (sim_pure rfl)
instance : LSim φ skipWhiteAndColon skipWhiteAndColon := sim_tell fun r => by
  rw [spanS_lab]; exact sim_seek rfl (sim_pure rfl)
theorem sim_errAt {msg msg' : Str} {q q' : Pos} (hm : msg' = msg) (hq : q' = lab φ q) :
    LSim φ (errAt msg q : Prog α) (errAt msg' q') := by
  subst hm hq; exact sim_fail rfl
theorem sim_errHere {msg msg' : Str} (hm : msg' = msg) :
    LSim φ (errHere msg : Prog α) (errHere msg') := by
  subst hm; exact sim_bind inferInstance fun _ => sim_fail rfl
instance {t : Token} : LSim φ (unexpected t : Prog α) (unexpected (lab φ t)) := sim_errAt rfl rfl

end

/-- The data of two corresponding steps agree. -/
macro "labeq" : tactic => `(tactic| first | rfl | (simp only [labs]; done) | (simp [labs]; done))

/-- One structural step of a proof that a program commutes with relabelling. -/
macro "sim1" : tactic => `(tactic| first
  | infer_instance
  | (refine sim_pure ?_; labeq)
  | (refine sim_errHere ?_; labeq)
  | (refine sim_errAt ?_ ?_ <;> labeq)
  | (refine sim_ite (by labeq) ?_ ?_)
  | (refine sim_loop (by labeq) fun _ => ?_)
  | refine sim_bind ?_ fun _ => ?_)

macro "sim" : tactic => `(tactic| repeat' sim1)

end Viml
