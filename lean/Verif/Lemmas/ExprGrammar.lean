/-
The expression parser seen as a grammar: whatever predicate is closed under the formation rules
below holds of every expression the parser returns.
-/
import Verif.Lemmas.Token
import Verif.Model.ExprParser
import Verif.Spec.Expr

namespace Viml
open Prog Spec

/-- A token of type `ty` is read between `r` and `r'`. -/
def Tk (env : Env) (r : List Cell) (ty : TT) (t : Token) (r' : List Cell) : Prop :=
  tokGet env r = .ok t r' ∧ t.ty = ty

/-- Relation between reader states and an expression. -/
abbrev ERel := List Cell → VExpr → List Cell → Prop

/-- `e1, e2, ..., en close` with an optional trailing comma. -/
inductive Items (env : Env) (Q : ERel) (close : TT) : List Cell → List VExpr → List Cell → Prop
  | nil {r t r'} : Tk env r close t r' → Items env Q close r [] r'
  | last {r e r1 t r'} : Q r e r1 → Tk env r1 close t r' → Items env Q close r [e] r'
  | cons {r e r1 t r2 es r'} : Q r e r1 → Tk env r1 .comma t r2 → Items env Q close r2 es r' →
      Items env Q close r (e :: es) r'

/-- `k1: v1, k2: v2 }` with an optional trailing comma. -/
inductive DItems (env : Env) (K Q : ERel) : List Cell → List (VExpr × VExpr) → List Cell → Prop
  | nil {r t r'} : Tk env r .cclose t r' → DItems env K Q r [] r'
  | last {r k r1 t r2 v r3 t' r'} : K r k r1 → Tk env r1 .colon t r2 → Q r2 v r3 →
      Tk env r3 .cclose t' r' → DItems env K Q r [(k, v)] r'
  | cons {r k r1 t r2 v r3 t' r4 kvs r'} : K r k r1 → Tk env r1 .colon t r2 → Q r2 v r3 →
      Tk env r3 .comma t' r4 → DItems env K Q r4 kvs r' → DItems env K Q r ((k, v) :: kvs) r'

/-- The key of a `#{...}` dictionary; the node position is one past its first character.  The parser has looked
at the token there. -/
def LitKey (env : Env) : ERel := fun r k r' =>
  (∃ t r1, tokGet env r = .ok t r1) ∧
  ∃ w r1 v, Reads r w r1 ∧ (∀ c ∈ w, iswhite c = true) ∧ Reads r1 v r' ∧ v ≠ [] ∧
    (∀ c ∈ v, isLitKeyC c = true) ∧ k = .atom (posOf env r1.tail) .string (cs!"'" ++ v ++ cs!"'")

/-- Parts of a name with curly braces. -/
inductive Parts (env : Env) (Q : ERel) : List Cell → List VExpr → List Cell → Prop
  | nil {r} : (headSym r).is isnamec = false → headSym r ≠ .ch '{' → Parts env Q r [] r
  | name {r ps r'} : (headSym r).is isnamec = true → Parts env Q (spanS isnamec r).2 ps r' →
      Parts env Q r (.atom (posOf env r) .curlynamepart (spanS isnamec r).1 :: ps) r'
  | expr {r e r1 ps r'} : headSym r = .ch '{' → Q r.tail e r1 →
      headSym (spanS iswhite r1).2 = .ch '}' → Parts env Q (spanS iswhite r1).2.tail ps r' →
      Parts env Q r (.curlyexpr (posOf env r.tail) e :: ps) r'

/-- Parts with an optional leading `<SID>`. -/
inductive IdParts (env : Env) (Q : ERel) : List Cell → List VExpr → List Cell → Prop
  | plain {r ps r'} : ¬ (headSym r = .ch '<' ∧ equalci (getnS 5 r).1 cs!"<SID>" = true) →
      Parts env Q r ps r' → IdParts env Q r ps r'
  | sid {r ps r'} : headSym r = .ch '<' → equalci (getnS 5 r).1 cs!"<SID>" = true →
      Parts env Q (getnS 5 r).2 ps r' →
      IdParts env Q r (.atom (posOf env r) .curlynamepart (getnS 5 r).1 :: ps) r'

/-- What an identifier starts with where the parser reads one. -/
def IdStart (r : List Cell) : Prop :=
  (headSym r).is iswordc1 = true ∨ Starts ['#', '{'] r ∨ headSym r = .ch '{' ∨
    (headSym r = .ch '<' ∧ equalci (getnS 5 r).1 cs!"<SID>" = true)

/-- The node made of the parts of a name. -/
def identNode (q : Pos) (parts : List VExpr) : VExpr :=
  match parts with
  | [.atom _ .curlynamepart v] => .atom q .identifier v
  | _ => .curlyname q parts

/-- Lambda parameters from the first one up to and including `->`. -/
inductive LamPs (env : Env) : List Str → List Cell → List (Pos × Str) → List Cell → Prop
  | done {named r t r'} : Tk env r .arrow t r' → LamPs env named r [] r'
  | dots {named r t r1 t' r'} : Tk env r .dotdotdot t r1 → Tk env r1 .arrow t' r' →
      LamPs env named r [(t.pos, t.value)] r'
  | last {named r t r1 t' r'} : Tk env r .identifier t r1 → isargname t.value = true →
      t.value ∉ named → Tk env r1 .arrow t' r' → LamPs env named r [(t.pos, t.value)] r'
  | cons {named r t r1 t' r2 ps r'} : Tk env r .identifier t r1 → isargname t.value = true →
      t.value ∉ named → (headSym r1).is iswhite = false → Tk env r1 .comma t' r2 →
      LamPs env (t.value :: named) r2 ps r' →
      LamPs env named r ((t.pos, t.value) :: ps) r'

/-- Atoms that are a single token. -/
def atomTok : TT → Option AtomTy
  | .number => some .number
  | .blob => some .blob
  | .option => some .option
  | .env => some .env
  | .reg => some .reg
  | _ => none

/-- Left-associative levels: level 2, 3, 5 and 6. -/
def opsAt : Nat → TT → Option BinTy
  | 2 => opsOr
  | 3 => opsAnd
  | 5 => opsAdd
  | 6 => opsMul
  | _ => fun _ => none

/-- A parsed expression: consumed at least one character of one line. -/
structure Der (env : Env) (P : Nat → ERel) (k : Nat) (r : List Cell) (e : VExpr) (r' : List Cell) :
    Prop where
  adv : SAdv r r'
  suf : Suf env r
  p : P k r e r'

theorem Der.suf' {env : Env} {P : Nat → ERel} {k : Nat} {r : List Cell} {e : VExpr}
    {r' : List Cell} (h : Der env P k r e r') : Suf env r' := h.adv.suf h.suf

/-- `P k r e r'` is closed under the formation rules: `k` is the number of the `parse_expr<k>` that
returns the expression. -/
structure Closed (env : Env) (P : Nat → ERel) : Prop where
  up : ∀ {k r e r'}, 1 ≤ k → Der env P (k + 1) r e r' → P k r e r'
  atom : ∀ {r ty t r' a}, Suf env r → Tk env r ty t r' → atomTok ty = some a →
    P 9 r (.atom t.pos a t.value) r'
  dstring : ∀ {r w r1 s r'}, Suf env r → Reads r w r1 → (∀ c ∈ w, iswhite c = true) → DBody s →
    Reads r1 (cs!"\"" ++ s ++ cs!"\"") r' → P 9 r (.atom (posOf env r1) .string (cs!"\"" ++ s ++ cs!"\"")) r'
  sstring : ∀ {r w r1 s r'}, Suf env r → Reads r w r1 → (∀ c ∈ w, iswhite c = true) → SBody s →
    Reads r1 (cs!"'" ++ s ++ cs!"'") r' → headSym r' ≠ .ch '\'' →
    P 9 r (.atom (posOf env r1) .string (cs!"'" ++ s ++ cs!"'")) r'
  list : ∀ {r t r1 vs r'}, Suf env r → Tk env r .sqopen t r1 →
    Items env (Der env P 1) .sqclose r1 vs r' → P 9 r (.list t.pos vs) r'
  paren : ∀ {r t r1 e r2 t' r'}, Suf env r → Tk env r .popen t r1 → Der env P 1 r1 e r2 →
    Tk env r2 .pclose t' r' → P 9 r (.paren t.pos e) r'
  dict : ∀ {r t r1 kvs r'}, Suf env r → Tk env r .copen t r1 →
    DItems env (Der env P 1) (Der env P 1) r1 kvs r' → P 9 r (.dict t.pos kvs) r'
  litdict : ∀ {r t r1 kvs r'}, Suf env r → Tk env r .litcopen t r1 →
    DItems env (LitKey env) (Der env P 1) r1 kvs r' → P 9 r (.dict t.pos kvs) r'
  lambda : ∀ {r t r1 ps r2 e r3 t' r'}, Suf env r → Tk env r .copen t r1 ∨ Tk env r .litcopen t r1 →
    LamPs env [] r1 ps r2 → Der env P 1 r2 e r3 → Tk env r3 .cclose t' r' →
    P 9 r (.lambda t.pos ps e) r'
  ident : ∀ {r w r1 ps r'}, Suf env r → Reads r w r1 → (∀ c ∈ w, iswhite c = true) →
    IdParts env (Der env P 1) r1 ps r' → ps ≠ [] → IdStart r1 → P 9 r (identNode (posOf env r1) ps) r'
  subscript : ∀ {r l r1 t r2 x r3 t' r'}, Der env P 8 r l r1 → (headSym r1).is iswhite = false →
    Tk env r1 .sqopen t r2 → Der env P 1 r2 x r3 → Tk env r3 .sqclose t' r' →
    P 8 r (.subscript t.pos l x) r'
  slice : ∀ {r l r1 t r2 lo r3 t' r4 hi r5 t'' r'}, Der env P 8 r l r1 →
    (headSym r1).is iswhite = false → Tk env r1 .sqopen t r2 →
    (lo = none ∧ r3 = r2 ∨ ∃ x, lo = some x ∧ Der env P 1 r2 x r3) → Tk env r3 .colon t' r4 →
    (hi = none ∧ r5 = r4 ∨ ∃ x, hi = some x ∧ Der env P 1 r4 x r5) → Tk env r5 .sqclose t'' r' →
    P 8 r (.slice t.pos l lo hi) r'
  method : ∀ {r l r1 t r2 f r3 t' r4 as r'}, Der env P 8 r l r1 → Tk env r1 .arrow t r2 →
    Der env P 9 r2 f r3 → Tk env r3 .popen t' r4 → Items env (Der env P 1) .pclose r4 as r' →
    as.length ≤ 20 → P 8 r (.method t'.pos l (.call t'.pos f as)) r'
  call : ∀ {r l r1 t r2 as r'}, Der env P 8 r l r1 → Tk env r1 .popen t r2 →
    Items env (Der env P 1) .pclose r2 as r' → as.length ≤ 20 → P 8 r (.call t.pos l as) r'
  dot : ∀ {r l r1 t r2}, Der env P 8 r l r1 → (headSym r1).is iswhite = false →
    Tk env r1 .dot t r2 → dotLeft l = true → (headSym r2).is iswordc = true →
    (headSym (spanS iswordc r2).2).is isnamec = false →
    P 8 r (.dot t.pos l (posOf env r2) (spanS iswordc r2).1) (spanS iswordc r2).2
  unary : ∀ {r ty t r1 op e r'}, Suf env r → Tk env r ty t r1 → opsUnary ty = some op →
    Der env P 7 r1 e r' → P 7 r (.unary t.pos op e) r'
  binary : ∀ {k r l r1 ty t r2 op x r'}, opsAt k ty = some op → Der env P k r l r1 →
    Tk env r1 ty t r2 → Der env P (k + 1) r2 x r' → P k r (.binary t.pos op l x) r'
  compare : ∀ {r l r1 ty t r2 op x r'}, opsCmp ty = some op → Der env P 5 r l r1 →
    Tk env r1 ty t r2 → Der env P 5 r2 x r' → P 4 r (.binary t.pos op l x) r'
  ternary : ∀ {r c r1 t r2 a r3 t' r4 b r'}, Der env P 2 r c r1 → Tk env r1 .question t r2 →
    Der env P 1 r2 a r3 → Tk env r3 .colon t' r4 → Der env P 1 r4 b r' →
    P 1 r (.ternary t.pos c a b) r'

/-! The same rules with everything the parser has seen: what follows a complete phrase, and how a
brace or a name was recognised. -/

/-- What stands after a complete phrase of a level that is read by a loop: nothing that continues it. -/
def StopAt (env : Env) (k : Nat) (e : VExpr) (r' : List Cell) : Prop :=
  if k = 8 then
    ∃ t r2, tokGet env r' = .ok t r2 ∧ t.ty ≠ .arrow ∧ t.ty ≠ .popen ∧
      ((headSym r').is iswhite = false → t.ty ≠ .sqopen ∧
        (t.ty = .dot → dotLeft e = true → (headSym r2).is iswordc = true →
          (headSym (spanS iswordc r2).2).is isnamec = true))
  else if k = 2 ∨ k = 3 ∨ k = 5 ∨ k = 6 then ∃ t r2, tokGet env r' = .ok t r2 ∧ opsAt k t.ty = none
  else True

/-- What stands after an operand where an operator of a level without repetition is possible. -/
def Look (env : Env) (k : Nat) (r' : List Cell) : Prop :=
  if k = 1 then ∃ t r2, tokGet env r' = .ok t r2 ∧ t.ty ≠ .question
  else if k = 4 then ∃ t r2, tokGet env r' = .ok t r2 ∧ opsCmp t.ty = none
  else True

/-- A complete phrase. -/
structure Fin' (env : Env) (P : Nat → ERel) (k : Nat) (r : List Cell) (e : VExpr) (r' : List Cell) :
    Prop extends Der env P k r e r' where
  stop : StopAt env k e r'

/-- After a brace the parser does not take what follows as a lambda. -/
def NoLam (env : Env) (r : List Cell) : Prop :=
  ∃ t1 r1, tokGet env r = .ok t1 r1 ∧ t1.ty ≠ .arrow ∧
    (t1.ty = .squote ∨ t1.ty = .dquote ∨ ∃ t2 r2, tokGet env r1 = .ok t2 r2 ∧
      (t2.ty = .arrow → t1.ty ≠ .identifier ∧ t1.ty ≠ .dotdotdot) ∧
      (t2.ty = .comma → t1.ty ≠ .dotdotdot ∧ (t1.ty = .identifier → isargname t1.value = true)))

/-- How a name was recognised in operand position. -/
def IdHead (env : Env) (r : List Cell) : Prop :=
  ∃ t r1, tokGet env r = .ok t r1 ∧
    (t.ty = .identifier ∨ isIsToken t.ty = true ∨
      t.ty = .cmp .smaller .plain ∧ equalci (getnS 4 r1).1 cs!"SID>" = true ∨
      t.ty = .copen ∧ NoLam env r1 ∨
      t.ty = .litcopen ∧ NoLam env r1 ∧ ∃ k r2 t' r3, LitKey env r1 k r2 ∧ Tk env r2 .cclose t' r3)

/-- Like `Closed`; the rules need to hold only for what the parser can actually do. -/
structure ClosedL (env : Env) (P : Nat → ERel) : Prop where
  up : ∀ {k r e r'}, 1 ≤ k → Fin' env P (k + 1) r e r' → Look env k r' → P k r e r'
  atom : ∀ {r ty t r' a}, Suf env r → Tk env r ty t r' → atomTok ty = some a →
    P 9 r (.atom t.pos a t.value) r'
  dstring : ∀ {r w r1 s r'}, Suf env r → Reads r w r1 → (∀ c ∈ w, iswhite c = true) → DBody s →
    Reads r1 (cs!"\"" ++ s ++ cs!"\"") r' → P 9 r (.atom (posOf env r1) .string (cs!"\"" ++ s ++ cs!"\"")) r'
  sstring : ∀ {r w r1 s r'}, Suf env r → Reads r w r1 → (∀ c ∈ w, iswhite c = true) → SBody s →
    Reads r1 (cs!"'" ++ s ++ cs!"'") r' → headSym r' ≠ .ch '\'' →
    P 9 r (.atom (posOf env r1) .string (cs!"'" ++ s ++ cs!"'")) r'
  list : ∀ {r t r1 vs r'}, Suf env r → Tk env r .sqopen t r1 →
    Items env (Der env P 1) .sqclose r1 vs r' → P 9 r (.list t.pos vs) r'
  paren : ∀ {r t r1 e r2 t' r'}, Suf env r → Tk env r .popen t r1 → Der env P 1 r1 e r2 →
    Tk env r2 .pclose t' r' → P 9 r (.paren t.pos e) r'
  dict : ∀ {r t r1 kvs r'}, Suf env r → Tk env r .copen t r1 → NoLam env r1 →
    DItems env (Der env P 1) (Der env P 1) r1 kvs r' → P 9 r (.dict t.pos kvs) r'
  litdict : ∀ {r t r1 kvs r'}, Suf env r → Tk env r .litcopen t r1 → NoLam env r1 →
    DItems env (LitKey env) (Der env P 1) r1 kvs r' → P 9 r (.dict t.pos kvs) r'
  lambda : ∀ {r t r1 ps r2 e r3 t' r'}, Suf env r → Tk env r .copen t r1 ∨ Tk env r .litcopen t r1 →
    LamPs env [] r1 ps r2 → Der env P 1 r2 e r3 → Tk env r3 .cclose t' r' →
    P 9 r (.lambda t.pos ps e) r'
  ident : ∀ {r w r1 ps r'}, Suf env r → Reads r w r1 → (∀ c ∈ w, iswhite c = true) →
    IdParts env (Der env P 1) r1 ps r' → ps ≠ [] → IdStart r1 → IdHead env r →
    P 9 r (identNode (posOf env r1) ps) r'
  subscript : ∀ {r l r1 t r2 x r3 t' r'}, Der env P 8 r l r1 → (headSym r1).is iswhite = false →
    Tk env r1 .sqopen t r2 → Der env P 1 r2 x r3 → Tk env r3 .sqclose t' r' →
    P 8 r (.subscript t.pos l x) r'
  slice : ∀ {r l r1 t r2 lo r3 t' r4 hi r5 t'' r'}, Der env P 8 r l r1 →
    (headSym r1).is iswhite = false → Tk env r1 .sqopen t r2 →
    (lo = none ∧ r3 = r2 ∨ ∃ x, lo = some x ∧ Der env P 1 r2 x r3) → Tk env r3 .colon t' r4 →
    (hi = none ∧ r5 = r4 ∨ ∃ x, hi = some x ∧ Der env P 1 r4 x r5) → Tk env r5 .sqclose t'' r' →
    P 8 r (.slice t.pos l lo hi) r'
  method : ∀ {r l r1 t r2 f r3 t' r4 as r'}, Der env P 8 r l r1 → Tk env r1 .arrow t r2 →
    Der env P 9 r2 f r3 → Tk env r3 .popen t' r4 → Items env (Der env P 1) .pclose r4 as r' →
    as.length ≤ 20 → P 8 r (.method t'.pos l (.call t'.pos f as)) r'
  call : ∀ {r l r1 t r2 as r'}, Der env P 8 r l r1 → Tk env r1 .popen t r2 →
    Items env (Der env P 1) .pclose r2 as r' → as.length ≤ 20 → P 8 r (.call t.pos l as) r'
  dot : ∀ {r l r1 t r2}, Der env P 8 r l r1 → (headSym r1).is iswhite = false →
    Tk env r1 .dot t r2 → dotLeft l = true → (headSym r2).is iswordc = true →
    (headSym (spanS iswordc r2).2).is isnamec = false →
    P 8 r (.dot t.pos l (posOf env r2) (spanS iswordc r2).1) (spanS iswordc r2).2
  unary : ∀ {r ty t r1 op e r'}, Suf env r → Tk env r ty t r1 → opsUnary ty = some op →
    Der env P 7 r1 e r' → P 7 r (.unary t.pos op e) r'
  binary : ∀ {k r l r1 ty t r2 op x r'}, opsAt k ty = some op → Der env P k r l r1 →
    Tk env r1 ty t r2 → Fin' env P (k + 1) r2 x r' → P k r (.binary t.pos op l x) r'
  compare : ∀ {r l r1 ty t r2 op x r'}, opsCmp ty = some op → Fin' env P 5 r l r1 →
    Tk env r1 ty t r2 → Fin' env P 5 r2 x r' → P 4 r (.binary t.pos op l x) r'
  ternary : ∀ {r c r1 t r2 a r3 t' r4 b r'}, Fin' env P 2 r c r1 → Tk env r1 .question t r2 →
    Der env P 1 r2 a r3 → Tk env r3 .colon t' r4 → Der env P 1 r4 b r' →
    P 1 r (.ternary t.pos c a b) r'

theorem Closed.toL {env : Env} {P : Nat → ERel} (h : Closed env P) : ClosedL env P where
  up := fun hk h1 _ => h.up hk h1.toDer
  atom := h.atom
  dstring := h.dstring
  sstring := h.sstring
  list := h.list
  paren := h.paren
  dict := fun a b _ c => h.dict a b c
  litdict := fun a b _ c => h.litdict a b c
  lambda := h.lambda
  ident := fun a b c d e f _ => h.ident a b c d e f
  subscript := h.subscript
  slice := h.slice
  method := h.method
  call := h.call
  dot := h.dot
  unary := h.unary
  binary := fun a b c d => h.binary a b c d.toDer
  compare := fun a b c d => h.compare a b.toDer c d.toDer
  ternary := fun a b c d e => h.ternary a.toDer b c d e

section
variable {env : Env} {P : Nat → ERel}

theorem Tk.at (he : EnvOK env) {r : List Cell} (hs : Suf env r) {ty : TT} {t : Token}
    {r' : List Cell} (h : Tk env r ty t r') : TokAt env r t r' := tokGet_at he hs h.1

theorem Tk.sadv (he : EnvOK env) {r : List Cell} (hs : Suf env r) {ty : TT} {t : Token}
    {r' : List Cell} (h : Tk env r ty t r') (h1 : ty ≠ .eof := by decide)
    (h2 : ty ≠ .eol := by decide) : SAdv r r' :=
  (h.at he hs).sadv (h.2 ▸ h1) (h.2 ▸ h2)

theorem Items.adv (he : EnvOK env) {close : TT} (h1 : close ≠ .eof := by decide)
    (h2 : close ≠ .eol := by decide) {r : List Cell} {vs : List VExpr} {r' : List Cell} (hs : Suf env r)
    (h : Items env (Der env P 1) close r vs r') : SAdv r r' := by
  induction h with
  | nil ht => exact ht.sadv he hs h1 h2
  | last hq ht => exact hq.adv.trans (ht.sadv he hq.suf' h1 h2)
  | cons hq ht _ ih =>
    have := ht.sadv he hq.suf'
    exact (hq.adv.trans this).trans (ih (this.suf hq.suf'))

theorem LitKey.adv {r : List Cell} {k : VExpr} {r' : List Cell} (h : LitKey env r k r') :
    SAdv r r' := by
  obtain ⟨_, w, r1, v, h1, _, h2, h3, _, _⟩ := h
  exact h1.adv.trans_sadv (h2.sadv h3)

theorem DItems.adv (he : EnvOK env) {K : ERel} (hk : ∀ r k r', K r k r' → SAdv r r')
    {r : List Cell} {vs : List (VExpr × VExpr)} {r' : List Cell} (hs : Suf env r)
    (h : DItems env K (Der env P 1) r vs r') : SAdv r r' := by
  induction h with
  | nil ht => exact ht.sadv he hs
  | last hk' hc hq ht =>
    have a1 := hk _ _ _ hk'
    have a2 := a1.trans (hc.sadv he (a1.suf hs))
    have a3 := a2.trans hq.adv
    exact a3.trans (ht.sadv he (a3.suf hs))
  | cons hk' hc hq ht _ ih =>
    have a1 := hk _ _ _ hk'
    have a2 := a1.trans (hc.sadv he (a1.suf hs))
    have a3 := a2.trans hq.adv
    have a4 := a3.trans (ht.sadv he (a3.suf hs))
    exact a4.trans (ih (a4.suf hs))

theorem headSym_sadv {r : List Cell} {c : Char} (h : headSym r = .ch c) : SAdv r r.tail :=
  (headSym_reads h).sadv (by simp)

theorem spanS_sadv {f : Char → Bool} {r : List Cell} (h : (headSym r).is f = true) :
    SAdv r (spanS f r).2 := by
  obtain ⟨c, hc, hf⟩ := Sym.is_ch h
  exact (spanS_reads f r).sadv (spanS_many1 ⟨hc, trivial⟩ hf).1

theorem Parts.adv {r : List Cell} {ps : List VExpr} {r' : List Cell}
    (h : Parts env (Der env P 1) r ps r') : Adv r r' := by
  induction h with
  | nil => exact Adv.refl _
  | name hh _ ih => exact (spanS_sadv hh).1.trans ih
  | expr hh hq hc _ ih =>
    exact (headSym_sadv hh).1.trans (hq.adv.1.trans ((spanS_adv _ _).trans
      ((headSym_sadv hc).1.trans ih)))

theorem Parts.sadv {r : List Cell} {ps : List VExpr} {r' : List Cell}
    (h : Parts env (Der env P 1) r ps r') (hne : ps ≠ []) : SAdv r r' := by
  cases h with
  | nil => simp at hne
  | name hh h => exact (spanS_sadv hh).trans_adv h.adv
  | expr hh hq hc h =>
    exact (headSym_sadv hh).trans_adv (hq.adv.1.trans ((spanS_adv _ _).trans
      ((headSym_sadv hc).1.trans h.adv)))

theorem IdParts.sadv {r : List Cell} {ps : List VExpr} {r' : List Cell}
    (h : IdParts env (Der env P 1) r ps r') (hne : ps ≠ []) : SAdv r r' := by
  cases h with
  | plain _ h => exact h.sadv hne
  | sid hh _ h =>
    refine SAdv.trans_adv ?_ h.adv
    refine (getnS_reads 5 r).sadv ?_
    obtain ⟨c, r', rfl, hc⟩ := headSym_ch hh
    simp [getnS, hc]

theorem LamPs.sadv (he : EnvOK env) {named : List Str} {r : List Cell} {ps : List (Pos × Str)}
    {r' : List Cell} (hs : Suf env r) (h : LamPs env named r ps r') : SAdv r r' := by
  induction h with
  | done ht => exact ht.sadv he hs
  | dots ht ht' =>
    have := ht.sadv he hs
    exact this.trans (ht'.sadv he (this.suf hs))
  | last ht _ _ ht' =>
    have := ht.sadv he hs
    exact this.trans (ht'.sadv he (this.suf hs))
  | cons ht _ _ _ ht' _ ih =>
    have a1 := ht.sadv he hs
    have a2 := a1.trans (ht'.sadv he (a1.suf hs))
    exact a2.trans (ih (a2.suf hs))

end

end Viml
