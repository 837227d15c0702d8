/-
`Walk` follows its specification.
-/
import Verif.Spec.Walk

namespace Viml
open Viml.Ast Spec

/-- Something that walks nodes, for any visitor. -/
abbrev Walker := ∀ (V S : Type), Visit V S → V → S → S

/-- `F` walks the nodes `ns`. -/
def GoodW (ns : List Node) (F : Walker) : Prop :=
  ∀ (V S : Type) (visit : Visit V S) (v : V) (s : S) (l : List (Call V)), ∃ tr,
    WalksAll visit walkedParts v ns s tr (F V S visit v s) ∧
    F V (S × List (Call V)) (logged visit) v (s, l) = (F V S visit v s, l ++ tr)

theorem Spec.WalksAll.append {V S : Type} {visit : Visit V S} {ch : Node → List Node} {v : V} {b : List Node}
    {t2 : List (Call V)} {s1 s2 : S} : ∀ {a : List Node} {s : S} {t1 : List (Call V)},
    WalksAll visit ch v a s t1 s1 → WalksAll visit ch v b s1 t2 s2 → WalksAll visit ch v (a ++ b) s (t1 ++ t2) s2
  | [], _, _, .nil, h2 => h2
  | n :: a, s, _, .cons h h1, h2 => by
    rw [List.append_assoc]
    exact .cons h (h1.append h2)

theorem GoodW.nil : GoodW [] fun _ _ _ _ s => s :=
  fun _ _ _ _ _ _ => ⟨[], .nil, by rw [List.append_nil]⟩

theorem GoodW.append {a b : List Node} {F G : Walker} (h1 : GoodW a F) (h2 : GoodW b G) :
    GoodW (a ++ b) fun V S visit v s => G V S visit v (F V S visit v s) := by
  intro V S visit v s l
  obtain ⟨t1, w1, e1⟩ := h1 V S visit v s l
  obtain ⟨t2, w2, e2⟩ := h2 V S visit v (F V S visit v s) (l ++ t1)
  exact ⟨t1 ++ t2, w1.append w2, by simp only [e1, e2, List.append_assoc]⟩

theorem GoodW.congr {a b : List Node} {F G : Walker} (h : GoodW a F) (e : b = a)
    (hF : ∀ V S visit v s, G V S visit v s = F V S visit v s) : GoodW b G := by
  subst e
  intro V S visit v s l
  rw [hF, hF]
  exact h V S visit v s l

theorem GoodW.node {n : Node} {F K : Walker}
    (hp : ∀ V S (visit : Visit V S) v s s1, visit v (some n) s = (none, s1) → F V S visit v s = s1)
    (he : ∀ V S (visit : Visit V S) v s w s1, visit v (some n) s = (some w, s1) →
      F V S visit v s = (visit w none (K V S visit w s1)).2)
    (hK : GoodW (walkedParts n) K) : GoodW [n] F := by
  intro V S visit v s l
  cases hv : visit v (some n) s with
  | mk o s1 =>
    cases o with
    | none =>
      refine ⟨[⟨v, some n, none⟩], .cons (.prune (s' := s1) hv) (hp _ _ _ _ _ _ hv ▸ .nil), ?_⟩
      rw [hp _ _ _ _ _ _ hv]
      exact hp V _ (logged visit) v (s, l) _ (by simp [logged, hv])
    | some w =>
      obtain ⟨tr, w1, e1⟩ := hK V S visit w s1 (l ++ [⟨v, some n, some w⟩])
      have := he _ _ _ _ _ _ _ hv
      refine ⟨(⟨v, some n, some w⟩ :: (tr ++ [⟨w, none, (visit w none (K V S visit w s1)).1⟩])) ++ [],
        .cons (.enter hv w1 rfl) (this ▸ .nil), ?_⟩
      rw [he V _ (logged visit) v (s, l) w (s1, l ++ [⟨v, some n, some w⟩]) (by simp [logged, hv]), e1, this]
      simp [logged]

/-- A node without children. -/
theorem good_leaf {n : Node} (h : walkedParts n = []) : GoodW [n] fun _ _ visit v s => walkLeaf visit v n s :=
  GoodW.node (K := fun _ _ _ _ s => s) (fun _ _ _ _ _ _ h => by simp only [walkLeaf, h])
    (fun _ _ _ _ _ _ _ h => by simp only [walkLeaf, h]) (by rw [h]; exact GoodW.nil)

theorem good_idents : ∀ ps : List Ident,
    GoodW (ps.map fun i => .expr (.ident i)) fun _ _ visit v s => walkIdents visit v ps s
  | [] => GoodW.nil.congr rfl (fun _ _ _ _ _ => rfl)
  | i :: ps => ((good_leaf (n := .expr (.ident i)) rfl).append (good_idents ps)).congr rfl (fun _ _ _ _ _ => rfl)

mutual

theorem good_expr : ∀ e : Expr, GoodW [.expr e] fun _ _ visit v s => walkExpr visit v e s
  | .ternary _ c l r => GoodW.node
      (fun _ _ _ _ _ _ h => by rw [walkExpr, h]) (fun _ _ _ _ _ _ _ h => by rw [walkExpr, h])
      ((good_expr c).append ((good_expr l).append (good_expr r)))
  | .binary l _ _ r => GoodW.node
      (fun _ _ _ _ _ _ h => by rw [walkExpr, h]) (fun _ _ _ _ _ _ _ h => by rw [walkExpr, h])
      ((good_expr l).append (good_expr r))
  | .unary _ _ x => GoodW.node
      (fun _ _ _ _ _ _ h => by rw [walkExpr, h]) (fun _ _ _ _ _ _ _ h => by rw [walkExpr, h])
      (good_expr x)
  | .subscript _ l r => GoodW.node
      (fun _ _ _ _ _ _ h => by rw [walkExpr, h]) (fun _ _ _ _ _ _ _ h => by rw [walkExpr, h])
      ((good_expr l).append (good_expr r))
  | .slice x _ lo hi => GoodW.node
      (fun _ _ _ _ _ _ h => by rw [walkExpr, h]) (fun _ _ _ _ _ _ _ h => by rw [walkExpr, h])
      (((good_expr x).append ((good_opt lo).append (good_opt hi))).congr
        (by simp [walkedParts, parts, exprParts]) (fun _ _ _ _ _ => rfl))
  | .method l m _ as => GoodW.node
      (fun _ _ _ _ _ _ h => by rw [walkExpr, h]) (fun _ _ _ _ _ _ _ h => by rw [walkExpr, h])
      ((good_expr l).append ((good_expr m).append (good_exprs as)))
  | .call f _ as => GoodW.node
      (fun _ _ _ _ _ _ h => by rw [walkExpr, h]) (fun _ _ _ _ _ _ _ h => by rw [walkExpr, h])
      ((good_expr f).append (good_exprs as))
  | .dot l _ r => GoodW.node
      (fun _ _ _ _ _ _ h => by rw [walkExpr, h]) (fun _ _ _ _ _ _ _ h => by rw [walkExpr, h])
      ((good_expr l).append (good_leaf (n := .expr (.ident r)) rfl))
  | .basicLit .. => GoodW.node
      (fun _ _ _ _ _ _ h => by rw [walkExpr, h]) (fun _ _ _ _ _ _ _ h => by rw [walkExpr, h])
      GoodW.nil
  | .list _ vs => GoodW.node
      (fun _ _ _ _ _ _ h => by rw [walkExpr, h]) (fun _ _ _ _ _ _ _ h => by rw [walkExpr, h])
      (good_exprs vs)
  | .dict _ kvs => GoodW.node
      (fun _ _ _ _ _ _ h => by rw [walkExpr, h]) (fun _ _ _ _ _ _ _ h => by rw [walkExpr, h])
      (good_pairs kvs)
  | .ident _ => GoodW.node
      (fun _ _ _ _ _ _ h => by rw [walkExpr, h]) (fun _ _ _ _ _ _ _ h => by rw [walkExpr, h])
      GoodW.nil
  | .curlyName _ ps => GoodW.node
      (fun _ _ _ _ _ _ h => by rw [walkExpr, h]) (fun _ _ _ _ _ _ _ h => by rw [walkExpr, h])
      (good_exprs ps)
  | .curlyNameLit .. => GoodW.node
      (fun _ _ _ _ _ _ h => by rw [walkExpr, h]) (fun _ _ _ _ _ _ _ h => by rw [walkExpr, h])
      GoodW.nil
  | .curlyNameExpr _ x => GoodW.node
      (fun _ _ _ _ _ _ h => by rw [walkExpr, h]) (fun _ _ _ _ _ _ _ h => by rw [walkExpr, h])
      (good_expr x)
  | .lambda _ ps _ => GoodW.node
      (fun _ _ _ _ _ _ h => by rw [walkExpr, h]) (fun _ _ _ _ _ _ _ h => by rw [walkExpr, h])
      (good_idents ps)
  | .paren _ x => GoodW.node
      (fun _ _ _ _ _ _ h => by rw [walkExpr, h]) (fun _ _ _ _ _ _ _ h => by rw [walkExpr, h])
      (good_expr x)
  | .heredoc _ fl _ b => GoodW.node
      (fun _ _ _ _ _ _ h => by rw [walkExpr, h]) (fun _ _ _ _ _ _ _ h => by rw [walkExpr, h])
      (((good_exprs fl).append (good_exprs b)).congr (by simp [walkedParts, parts, exprParts])
        (fun _ _ _ _ _ => rfl))

theorem good_opt : ∀ o : Option Expr,
    GoodW (o.toList.map .expr) fun _ _ visit v s => walkExprOpt visit v o s
  | none => GoodW.nil.congr rfl (fun _ _ _ _ _ => by simp only [walkExprOpt])
  | some e => (good_expr e).congr rfl (fun _ _ _ _ _ => by simp only [walkExprOpt])

theorem good_exprs : ∀ l : List Expr,
    GoodW (l.map .expr) fun _ _ visit v s => walkExprs visit v l s
  | [] => GoodW.nil.congr rfl (fun _ _ _ _ _ => by simp only [walkExprs])
  | e :: es => ((good_expr e).append (good_exprs es)).congr rfl (fun _ _ _ _ _ => by simp only [walkExprs])

theorem good_pairs : ∀ l : List (Expr × Expr),
    GoodW ((l.flatMap fun kv => [kv.1, kv.2]).map .expr) fun _ _ visit v s => walkPairs visit v l s
  | [] => GoodW.nil.congr rfl (fun _ _ _ _ _ => by simp only [walkPairs])
  | (k, x) :: l => ((good_expr k).append ((good_expr x).append (good_pairs l))).congr (by simp)
      (fun _ _ _ _ _ => by simp only [walkPairs])

end

local macro "node!" : term => `(GoodW.node
      (fun _ _ _ _ _ _ h => by rw [walkStmt, h]) (fun _ _ _ _ _ _ _ h => by rw [walkStmt, h]))

theorem good_end (k : EndKind) (e : EndCmd) :
    GoodW [.endCmd k e] fun _ _ visit v s => walkLeaf visit v (.endCmd k e) s := good_leaf rfl

mutual

theorem good_stmt : ∀ n : Stmt, GoodW [.stmt n] fun _ _ visit v s => walkStmt visit v n s
  | .comment .. => node! GoodW.nil
  | .excmd .. => node! GoodW.nil
  | .function _ _ body name ps _ _ e => node!
      (((good_expr name).append ((good_idents ps).append ((good_stmts body).append (good_end .function e)))).congr
        (by simp [walkedParts, stmtParts]) (fun _ _ _ _ _ => rfl))
  | .delFunction _ _ name => node! (good_expr name)
  | .return_ _ _ r => node! (good_opt r)
  | .exCall _ _ f lp as => node! (good_expr (.call f lp as))
  | .let_ _ _ _ l ls rest r => node!
      (((good_opt l).append ((good_exprs ls).append ((good_opt rest).append (good_expr r)))).congr
        (by simp [walkedParts, parts, stmtParts]) (fun _ _ _ _ _ => rfl))
  | .unLet _ _ l => node! (good_exprs l)
  | .lockVar _ _ _ l => node! (good_exprs l)
  | .unLockVar _ _ _ l => node! (good_exprs l)
  | .if_ _ _ body c eis el e => node!
      (((good_expr c).append ((good_stmts body).append ((good_stmts eis).append ((good_stmtOpt el).append
        (good_end .if_ e))))).congr
        (by simp [walkedParts, parts, stmtParts]) (fun _ _ _ _ _ => rfl))
  | .elseIf _ _ body c => node! ((good_expr c).append (good_stmts body))
  | .else_ _ _ body => node! (good_stmts body)
  | .while_ _ _ body c e => node! ((good_expr c).append ((good_stmts body).append (good_end .while_ e)))
  | .for_ _ _ body l ls rest r e => node!
      (((good_opt l).append ((good_exprs ls).append ((good_opt rest).append ((good_expr r).append
        ((good_stmts body).append (good_end .for_ e)))))).congr
        (by simp [walkedParts, parts, stmtParts]) (fun _ _ _ _ _ => rfl))
  | .continue_ .. => node! GoodW.nil
  | .break_ .. => node! GoodW.nil
  | .try_ _ _ body cs fi e => node!
      (((good_stmts body).append ((good_stmts cs).append ((good_stmtOpt fi).append (good_end .try_ e)))).congr
        (by simp [walkedParts, parts, stmtParts]) (fun _ _ _ _ _ => rfl))
  | .catch_ _ _ body _ => node! (good_stmts body)
  | .finally_ _ _ body => node! (good_stmts body)
  | .throw _ _ e => node! (good_expr e)
  | .eval _ _ e => node! (good_expr e)
  | .echoCmd _ _ _ l => node! (good_exprs l)
  | .echohl .. => node! GoodW.nil
  | .execute _ _ l => node! (good_exprs l)

theorem good_stmtOpt : ∀ o : Option Stmt,
    GoodW (o.toList.map .stmt) fun _ _ visit v s => walkStmtOpt visit v o s
  | none => GoodW.nil.congr rfl (fun _ _ _ _ _ => by simp only [walkStmtOpt])
  | some e => (good_stmt e).congr rfl (fun _ _ _ _ _ => by simp only [walkStmtOpt])

theorem good_stmts : ∀ l : List Stmt,
    GoodW (l.map .stmt) fun _ _ visit v s => walkStmts visit v l s
  | [] => GoodW.nil.congr rfl (fun _ _ _ _ _ => by simp only [walkStmts])
  | e :: es => ((good_stmt e).append (good_stmts es)).congr rfl (fun _ _ _ _ _ => by simp only [walkStmts])

end

theorem good_walk (n : Node) : GoodW [n] fun _ _ visit v s => walk visit v n s := by
  cases n with
  | stmt n => exact good_stmt n
  | expr e => exact good_expr e
  | endCmd k e => exact good_end k e
  | file f =>
    exact GoodW.node (fun _ _ _ _ _ _ h => by simp only [walk, h]) (fun _ _ _ _ _ _ _ h => by simp only [walk, h])
      (good_stmts f.body)

/-! ### Properties of the specification -/

mutual
theorem Spec.Walks.det {V S : Type} {visit : Visit V S} {ch : Node → List Node} : ∀ {v : V} {n : Node} {s s1 s2 : S}
    {t1 t2 : List (Call V)}, Walks visit ch v n s t1 s1 → Walks visit ch v n s t2 s2 → t1 = t2 ∧ s1 = s2
  | _, _, _, _, _, _, _, .prune h1, .prune h2 => by
    rw [h1] at h2
    cases h2
    exact ⟨rfl, rfl⟩
  | _, _, _, _, _, _, _, .prune h1, .enter h2 _ _ => by
    rw [h1] at h2
    cases h2
  | _, _, _, _, _, _, _, .enter h2 _ _, .prune h1 => by
    rw [h1] at h2
    cases h2
  | _, _, _, _, _, _, _, .enter h1 w1 e1, .enter h2 w2 e2 => by
    rw [h1] at h2
    cases h2
    obtain ⟨rfl, rfl⟩ := Spec.WalksAll.det w1 w2
    rw [e1] at e2
    cases e2
    exact ⟨rfl, rfl⟩

theorem Spec.WalksAll.det {V S : Type} {visit : Visit V S} {ch : Node → List Node} : ∀ {v : V} {n : List Node}
    {s s1 s2 : S} {t1 t2 : List (Call V)}, WalksAll visit ch v n s t1 s1 → WalksAll visit ch v n s t2 s2 →
    t1 = t2 ∧ s1 = s2
  | _, _, _, _, _, _, _, .nil, .nil => ⟨rfl, rfl⟩
  | _, _, _, _, _, _, _, .cons h1 w1, .cons h2 w2 => by
    obtain ⟨rfl, rfl⟩ := Spec.Walks.det h1 h2
    obtain ⟨rfl, rfl⟩ := Spec.WalksAll.det w1 w2
    exact ⟨rfl, rfl⟩
end

end Viml
