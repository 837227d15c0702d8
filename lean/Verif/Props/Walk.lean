/-
C28, C29, C30: `Walk` and `Inspect`.
-/
import Verif.Lemmas.Walk
import Verif.Model.Api

namespace Viml.Props
open Viml Viml.Ast Spec

/-! ### C29: the calls that `Walk` makes -/

/-- C29.  For every visitor, with whatever state, `Walk` makes the calls that its documentation describes (`Walks`), in
this order: `Visit(n)`; if the result is nil, nothing else; otherwise the children with the result, and at last
`Visit(nil)` on the result.  The children are `walkedParts`. -/
theorem C29_walk {V S : Type} (visit : Visit V S) (v : V) (n : Node) (s : S) (l : List (Call V)) :
    ∃ tr s', Walks visit walkedParts v n s tr s' ∧ walk visit v n s = s' ∧
      walk (logged visit) v n (s, l) = (s', l ++ tr) := by
  obtain ⟨tr, w, e⟩ := good_walk n V S visit v s l
  cases w with
  | cons h1 h2 =>
    cases h2
    rw [List.append_nil] at e
    exact ⟨_, _, h1, rfl, e⟩

/-- C29: the documentation determines the calls and the final state. -/
theorem C29_unique {V S : Type} (visit : Visit V S) (ch : Node → List Node) (v : V) (n : Node) (s s1 s2 : S)
    (t1 t2 : List (Call V)) (h1 : Walks visit ch v n s t1 s1) (h2 : Walks visit ch v n s t2 s2) :
    t1 = t2 ∧ s1 = s2 := h1.det h2

/-- The calls of `Visit` with a node that returned a visitor. -/
def entered {V : Type} (c : Call V) : Bool := c.arg.isSome && c.res.isSome

/-- The calls of `Visit(nil)`. -/
def left {V : Type} (c : Call V) : Bool := c.arg.isNone

mutual
theorem walks_count {V S : Type} {visit : Visit V S} {ch : Node → List Node} : ∀ {v : V} {n : Node} {s s' : S}
    {tr : List (Call V)}, Walks visit ch v n s tr s' → tr.countP entered = tr.countP left
  | _, _, _, _, _, .prune _ => by simp [entered, left]
  | _, _, _, _, _, .enter _ h _ => by
    have := walksAll_count h
    simp [entered, left] at this ⊢
    omega

theorem walksAll_count {V S : Type} {visit : Visit V S} {ch : Node → List Node} : ∀ {v : V} {n : List Node} {s s' : S}
    {tr : List (Call V)}, WalksAll visit ch v n s tr s' → tr.countP entered = tr.countP left
  | _, _, _, _, _, .nil => rfl
  | _, _, _, _, _, .cons h1 h2 => by
    rw [List.countP_append, List.countP_append, walks_count h1, walksAll_count h2]
end

/-- C29: as many calls of `Visit(nil)` as nodes entered. -/
theorem C29_balanced {V S : Type} (visit : Visit V S) (v : V) (n : Node) (s : S) :
    ((walk (logged visit) v n (s, [])).2).countP entered = ((walk (logged visit) v n (s, [])).2).countP left := by
  obtain ⟨tr, s', h1, _, h2⟩ := C29_walk visit v n s []
  rw [h2]
  exact walks_count h1

/-! ### C28: all nodes, once, in order -/

/-- The nodes `Visit` is called with. -/
def visited {V : Type} (tr : List (Call V)) : List Node := tr.filterMap (·.arg)

theorem visited_enter {V : Type} (v w : V) (n : Node) (r o : Option V) (tr : List (Call V)) :
    visited (⟨v, some n, r⟩ :: (tr ++ [⟨w, none, o⟩])) = n :: visited tr := by
  simp [visited]

mutual
theorem walks_preorder {V S : Type} {visit : Visit V S} {ch : Node → List Node}
    (hv : ∀ v n s, (visit v (some n) s).1 ≠ none) : ∀ {v : V} {n : Node} {s s' : S}
    {tr : List (Call V)}, Walks visit ch v n s tr s' → Preorder ch n (visited tr)
  | v, n, s, _, _, .prune h => absurd (congrArg Prod.fst h) (hv v n s)
  | _, n, _, _, _, .enter _ h _ => by
    rw [visited_enter]
    exact .mk (walksAll_preorder hv h)

theorem walksAll_preorder {V S : Type} {visit : Visit V S} {ch : Node → List Node}
    (hv : ∀ v n s, (visit v (some n) s).1 ≠ none) : ∀ {v : V} {ns : List Node} {s s' : S}
    {tr : List (Call V)}, WalksAll visit ch v ns s tr s' → PreorderAll ch ns (visited tr)
  | _, _, _, _, _, .nil => .nil
  | _, _, _, _, _, .cons h1 h2 => by
    have := PreorderAll.cons (walks_preorder hv h1) (walksAll_preorder hv h2)
    simpa [visited] using this
end

/-- The nodes of which `Walk` skips a part: lambdas, and functions with default values for parameters. -/
inductive Skips : Node → Prop
  | lambda {p : Ast.Pos} {ps : List Ident} {e : Expr} : Skips (.expr (.lambda p ps e))
  | function {p : Ast.Pos} {ea : Ast.ExArg} {body : List Stmt} {name : Expr} {ps : List Ident} {d : Expr} {ds : List Expr}
      {a : FuncAttr} {e : EndCmd} : Skips (.stmt (.function p ea body name ps (d :: ds) a e))

theorem walkedParts_eq {n : Node} (h : ¬ Skips n) : walkedParts n = parts n := by
  cases n with
  | file f => rfl
  | endCmd k e => rfl
  | expr e =>
    cases e with
    | lambda p ps x => exact absurd .lambda h
    | _ => rfl
  | stmt s =>
    cases s with
    | function p ea body name ps ds a e =>
      cases ds with
      | nil => rfl
      | cons d ds => exact absurd .function h
    | _ => rfl

theorem walkedParts_sub (n : Node) : (walkedParts n).Sublist (parts n) := by
  by_cases h : Skips n
  · cases h with
    | lambda =>
      simp only [walkedParts, parts, exprParts, List.map_append, List.map_map]
      exact List.sublist_append_left _ _
    | function =>
      simp only [walkedParts, parts, stmtParts]
      simp
  · rw [walkedParts_eq h]
    exact List.Sublist.refl _

theorem walkedParts_lt {n : Node} (h : Skips n) : (walkedParts n).length < (parts n).length := by
  cases h with
  | lambda => simp [walkedParts, parts, exprParts]
  | function =>
    simp only [walkedParts, parts, stmtParts]
    simp
    omega

theorem size_expr {e x : Expr} (h : x ∈ exprParts e) : sizeOf x < sizeOf e := by
  cases e with
  | ternary p c l r => simp [exprParts] at h; rcases h with rfl | rfl | rfl <;> simp <;> omega
  | binary l p o r => simp [exprParts] at h; rcases h with rfl | rfl <;> simp <;> omega
  | unary p o y => simp [exprParts] at h; subst h; simp; omega
  | subscript p l r => simp [exprParts] at h; rcases h with rfl | rfl <;> simp <;> omega
  | slice y p lo hi =>
    simp [exprParts] at h
    rcases h with rfl | rfl | rfl <;> simp <;> omega
  | method l m p as =>
    simp [exprParts] at h
    rcases h with rfl | rfl | h
    · simp; omega
    · simp; omega
    · have := List.sizeOf_lt_of_mem h
      simp; omega
  | call f p as =>
    simp [exprParts] at h
    rcases h with rfl | h
    · simp; omega
    · have := List.sizeOf_lt_of_mem h
      simp; omega
  | dot l p r => 
    simp [exprParts] at h
    rcases h with rfl | rfl
    · simp; omega
    · simp
      cases l <;> simp <;> omega
  | basicLit p k v => simp [exprParts] at h
  | list p vs =>
    have := List.sizeOf_lt_of_mem (show x ∈ vs from h)
    simp; omega
  | dict p kvs =>
    simp only [exprParts, List.mem_flatMap] at h
    obtain ⟨⟨a, b⟩, h1, h2⟩ := h
    have := List.sizeOf_lt_of_mem h1
    simp at h2 this
    rcases h2 with rfl | rfl <;> simp <;> omega
  | ident i => simp [exprParts] at h
  | curlyName p ps =>
    have := List.sizeOf_lt_of_mem (show x ∈ ps from h)
    simp; omega
  | curlyNameLit p v => simp [exprParts] at h
  | curlyNameExpr p y => simp [exprParts] at h; subst h; simp; omega
  | lambda p ps y =>
    simp only [exprParts, List.mem_append, List.mem_map, List.mem_singleton] at h
    rcases h with ⟨i, h, rfl⟩ | rfl
    · have := List.sizeOf_lt_of_mem h
      simp; omega
    · simp; omega
  | paren p y => simp [exprParts] at h; subst h; simp; omega
  | heredoc p fl m b =>
    simp only [exprParts, List.mem_append] at h
    rcases h with h | h
    all_goals
      have := List.sizeOf_lt_of_mem h
      simp; omega

theorem Node.sizes : (∀ e, sizeOf (Node.expr e) = 1 + sizeOf e) ∧ (∀ s, sizeOf (Node.stmt s) = 1 + sizeOf s) ∧
    (∀ k e, sizeOf (Node.endCmd k e) = 2 + sizeOf e) ∧ (∀ f, sizeOf (Node.file f) = 1 + sizeOf f) := by
  refine ⟨fun _ => by simp, fun _ => by simp, ?_, fun _ => by simp⟩
  intro k e
  cases k <;> simp <;> omega

theorem opt_size {α : Type} [SizeOf α] {o : Option α} {x : α} (h : o = some x) : sizeOf x < sizeOf o := by
  subst h
  simp

theorem size_stmt {n : Stmt} {x : Node} (h : x ∈ stmtParts n) : sizeOf x < 1 + sizeOf n := by
  have hp : ∀ p : Ast.Pos, 0 < sizeOf p := by
    intro p
    cases p
    simp
    omega
  cases n <;> simp [stmtParts] at h
  case exCall p ea f lp as => subst h; simp; cases ea; simp; omega
  all_goals
    repeat' first
      | cases ‹_ ∨ _›
      | obtain ⟨_, _, rfl⟩ := ‹∃ _, _ ∧ _›
  all_goals try subst ‹x = _›
  all_goals
    first
      | have := List.sizeOf_lt_of_mem ‹_ ∈ _›
      | have := opt_size ‹_ = some _›
      | skip
  all_goals have hp := hp ‹Ast.Pos›
  all_goals simp only [Node.sizes]
  all_goals simp
  all_goals omega

theorem size_parts {n x : Node} (h : x ∈ parts n) : sizeOf x < sizeOf n := by
  cases n with
  | file f =>
    simp only [parts, List.mem_map] at h
    obtain ⟨a, h, rfl⟩ := h
    have := List.sizeOf_lt_of_mem h
    cases f
    simp at this ⊢
    omega
  | stmt s =>
    have := size_stmt h
    simp only [Node.sizes]
    exact this
  | expr e =>
    simp only [parts, List.mem_map] at h
    obtain ⟨a, h, rfl⟩ := h
    have := size_expr h
    simp only [Node.sizes]
    omega
  | endCmd k e => cases h

mutual
theorem preorder_det {ch : Node → List Node} : ∀ {n : Node} {a b : List Node}, Preorder ch n a → Preorder ch n b → a = b
  | _, _, _, .mk h1, .mk h2 => by rw [preorderAll_det h1 h2]

theorem preorderAll_det {ch : Node → List Node} : ∀ {n : List Node} {a b : List Node}, PreorderAll ch n a →
    PreorderAll ch n b → a = b
  | _, _, _, .nil, .nil => rfl
  | _, _, _, .cons h1 w1, .cons h2 w2 => by rw [preorder_det h1 h2, preorderAll_det w1 w2]
end

theorem preorderAll_exists {ch : Node → List Node} : ∀ (ns : List Node), (∀ x ∈ ns, ∃ l, Preorder ch x l) →
    ∃ l, PreorderAll ch ns l
  | [], _ => ⟨[], .nil⟩
  | n :: ns, h => by
    obtain ⟨l1, h1⟩ := h n List.mem_cons_self
    obtain ⟨l2, h2⟩ := preorderAll_exists ns fun x hx => h x (List.mem_cons_of_mem _ hx)
    exact ⟨l1 ++ l2, .cons h1 h2⟩

theorem preorder_exists (n : Node) : ∃ l, Preorder parts n l := by
  obtain ⟨l, h⟩ := preorderAll_exists (ch := parts) (parts n) fun x hx => by
    have := size_parts hx
    exact preorder_exists x
  exact ⟨_, .mk h⟩
termination_by sizeOf n

theorem preorderAll_split {ch : Node → List Node} {m : Node} {ms : List Node} : ∀ {ns l : List Node},
    (m :: ms).Sublist ns → PreorderAll ch ns l → ∃ l1 l2 l3 ns', Preorder ch m l1 ∧ PreorderAll ch ns' l2 ∧
      ms.Sublist ns' ∧ (l1 ++ l2).Sublist l ∧ l3 + ns'.length + 1 = ns.length ∧ (l1 ++ l2).length + l3 ≤ l.length
  | _, _, .cons a hs, .cons (l1 := k1) h1 h2 => by
    obtain ⟨l1, l2, l3, ns', e1, e2, e3, e4, e5, e6⟩ := preorderAll_split hs h2
    refine ⟨l1, l2, l3 + 1, ns', e1, e2, e3, e4.trans (List.sublist_append_right _ _), by simp; omega, ?_⟩
    cases h1
    simp at e6 ⊢
    omega
  | _, _, .cons_cons a hs, .cons h1 h2 => ⟨_, _, 0, _, h1, h2, hs, List.Sublist.refl _, by simp, by simp⟩

mutual
theorem walks_sub {V S : Type} {visit : Visit V S} : ∀ {v : V} {n : Node} {s s' : S}
    {tr : List (Call V)} {l : List Node}, Walks visit walkedParts v n s tr s' → Preorder parts n l → (visited tr).Sublist l
  | _, _, _, _, _, _, .prune _, .mk _ => by simp [visited]
  | _, _, _, _, _, _, .enter _ h _, .mk hl => by
    rw [visited_enter]
    exact (walksAll_sub h (walkedParts_sub _) hl).cons_cons _

theorem walksAll_sub {V S : Type} {visit : Visit V S} : ∀ {v : V} {ms ns : List Node} {s s' : S}
    {tr : List (Call V)} {l : List Node}, WalksAll visit walkedParts v ms s tr s' → ms.Sublist ns → PreorderAll parts ns l →
    (visited tr).Sublist l
  | _, _, _, _, _, _, _, .nil, _, _ => by simp [visited]
  | _, _, _, _, _, _, _, .cons h1 h2, hs, hl => by
    obtain ⟨l1, l2, l3, ns', e1, e2, e3, e4, _⟩ := preorderAll_split hs hl
    refine List.Sublist.trans ?_ e4
    have := (walks_sub h1 e1).append (walksAll_sub h2 e3 e2)
    simpa [visited] using this
end

mutual
theorem preorder_le : ∀ {n : Node} {k l : List Node}, Preorder walkedParts n k → Preorder parts n l →
    k.length ≤ l.length
  | n, _, _, .mk h1, .mk h2 => by
    have := preorderAll_le h1 (walkedParts_sub _) h2
    have := (walkedParts_sub n).length_le
    simp
    omega

theorem preorderAll_le : ∀ {ms ns k l : List Node}, PreorderAll walkedParts ms k → ms.Sublist ns →
    PreorderAll parts ns l → k.length + ns.length ≤ l.length + ms.length
  | _, ns, _, l, .nil, _, h => by
    have : ∀ {ns l : List Node}, PreorderAll parts ns l → ns.length ≤ l.length := by
      intro ns
      induction ns with
      | nil => simp
      | cons n ns ih =>
        rintro l (_ | ⟨⟨_⟩, h2⟩)
        have := ih h2
        simp
        omega
    simpa using this h
  | _, _, _, _, .cons h1 h2, hs, hl => by
    obtain ⟨l1, l2, l3, ns', e1, e2, e3, e4, e5, e6⟩ := preorderAll_split hs hl
    have a1 := preorder_le h1 e1
    have a2 := preorderAll_le h2 e3 e2
    simp at e6 ⊢
    omega
end

theorem preorderAll_lt {c : Node} (hc : ∀ k l, Preorder walkedParts c k → Preorder parts c l → k.length < l.length) :
    ∀ {ms ns k l : List Node}, PreorderAll walkedParts ms k → ms.Sublist ns →
    PreorderAll parts ns l → c ∈ ms → k.length < l.length
  | _, _, _, _, .cons h1 h2, hs, hl, hm => by
    obtain ⟨l1, l2, l3, ns', e1, e2, e3, e4, e5, e6⟩ := preorderAll_split hs hl
    have a2 := preorderAll_le h2 e3 e2
    have := e3.length_le
    simp at e6 ⊢
    rcases List.mem_cons.1 hm with rfl | hm
    · have a1 := hc _ _ h1 e1
      omega
    · have a1 := preorder_le h1 e1
      have := preorderAll_lt hc h2 e3 e2 hm
      omega

theorem preorder_lt {n m : Node} (hb : Below walkedParts n m) (hm : Skips m) :
    ∀ k l, Preorder walkedParts n k → Preorder parts n l → k.length < l.length := by
  induction hb with
  | self =>
    rintro _ _ ⟨h1⟩ ⟨h2⟩
    have := preorderAll_le h1 (walkedParts_sub _) h2
    have := walkedParts_lt hm
    simp
    omega
  | child hc _ ih =>
    rintro _ _ ⟨h1⟩ ⟨h2⟩
    have := preorderAll_lt (ih hm) h1 (walkedParts_sub _) h2 hc
    simpa using this

theorem below_walked {n m : Node} (hb : Below parts n m) (hm : Skips m) : ∃ m', Below walkedParts n m' ∧ Skips m' := by
  induction hb with
  | self => exact ⟨_, .self, hm⟩
  | @child n c m hc _ ih =>
    by_cases hn : Skips n
    · exact ⟨n, .self, hn⟩
    · obtain ⟨m', h1, h2⟩ := ih hm
      exact ⟨m', .child (walkedParts_eq hn ▸ hc) h1, h2⟩

mutual
theorem preorder_full : ∀ {n : Node} {l : List Node}, Preorder walkedParts n l → (∀ m, Below parts n m → ¬ Skips m) →
    Preorder parts n l
  | n, _, .mk h, hs => by
    have e := walkedParts_eq (hs n .self)
    exact .mk (e ▸ preorderAll_full h fun x hx m hm => hs m (.child (e ▸ hx) hm))

theorem preorderAll_full : ∀ {ns l : List Node}, PreorderAll walkedParts ns l →
    (∀ n ∈ ns, ∀ m, Below parts n m → ¬ Skips m) → PreorderAll parts ns l
  | _, _, .nil, _ => .nil
  | _, _, .cons h1 h2, hs => .cons (preorder_full h1 (hs _ List.mem_cons_self))
      (preorderAll_full h2 fun x hx => hs x (List.mem_cons_of_mem _ hx))
end

/-- C28, for every visitor: the nodes that `Walk` visits are among the nodes of the tree, each at most once, in the
order parents before children and children in source order. -/
theorem C28_order {V S : Type} (visit : Visit V S) (v : V) (n : Node) (s : S) (all : List Node)
    (ha : Preorder parts n all) : (visited (walk (logged visit) v n (s, [])).2).Sublist all := by
  obtain ⟨tr, s', h1, _, h2⟩ := C29_walk visit v n s []
  rw [h2]
  exact walks_sub h1 ha

/-- C28: the list of the nodes of a tree exists and is unique. -/
theorem C28_nodes (n : Node) : ∃ all, Preorder parts n all ∧ ∀ all', Preorder parts n all' → all' = all := by
  obtain ⟨l, h⟩ := preorder_exists n
  exact ⟨l, h, fun _ h' => preorder_det h' h⟩

/-- C28, for a visitor that never prunes: exactly the nodes that are reachable without passing the body of a lambda or the
default value of a parameter are visited, each once, in order. -/
theorem C28_visits {V S : Type} (visit : Visit V S) (v : V) (n : Node) (s : S)
    (hv : ∀ v n s, (visit v (some n) s).1 ≠ none) :
    Preorder walkedParts n (visited (walk (logged visit) v n (s, [])).2) := by
  obtain ⟨tr, s', h1, _, h2⟩ := C29_walk visit v n s []
  rw [h2]
  exact walks_preorder hv h1

/-- C28: all nodes are visited, each exactly once and in order, if and only if the tree has no lambda and no default values
of parameters. -/
theorem C28_all {V S : Type} (visit : Visit V S) (v : V) (n : Node) (s : S)
    (hv : ∀ v n s, (visit v (some n) s).1 ≠ none) :
    Preorder parts n (visited (walk (logged visit) v n (s, [])).2) ↔ ∀ m, Below parts n m → ¬ Skips m := by
  have hw := C28_visits visit v n s hv
  constructor
  · intro hp m hb hm
    obtain ⟨m', h1, h2⟩ := below_walked hb hm
    exact Nat.lt_irrefl _ (preorder_lt h1 h2 _ _ hw hp)
  · exact preorder_full hw

/-- `Visit` of a visitor that logs the nodes and never prunes. -/
def collect : Visit Unit (List Node) := fun _ n l =>
  match n with
  | none => (none, l)
  | some n => (some (), l ++ [n])

/-- The names of the identifiers in a list of nodes. -/
def identNames (l : List Node) : List Str :=
  l.filterMap fun n => match n with | .expr (.ident i) => some i.name | _ => none

-- `x` and `i` are visited in `call map(x, {i -> y})`, `y` is not
example : (match parseFileLines false [] [cs!"call map(x, {i -> y})"] with
    | some ⟨some f, none⟩ => identNames (walk collect () (.file f) []) == [cs!"map", cs!"x", cs!"i"]
    | _ => false) = true := by decide +kernel
-- `z` is not visited in the first line
example : (match parseFileLines false [] [cs!"function F(a, b = z)", cs!"return a + b", cs!"endfunction"] with
    | some ⟨some f, none⟩ => identNames (walk collect () (.file f) []) == [cs!"F", cs!"a", cs!"b", cs!"a", cs!"b"]
    | _ => false) = true := by decide +kernel
-- a file in which all nodes are visited
example : (match parseFileLines false [] [cs!"for [a; b] in c", cs!"if d[e : f]", cs!"let g.h = {i : j}", cs!"endif",
      cs!"endfor"] with
    | some ⟨some f, none⟩ => identNames (walk collect () (.file f) []) ==
        [cs!"a", cs!"b", cs!"c", cs!"d", cs!"e", cs!"f", cs!"g", cs!"h", cs!"i", cs!"j"]
    | _ => false) = true := by decide +kernel
example : ∀ v n s, (collect v (some n) s).1 ≠ none := fun _ _ _ h => by cases h
example (p : Ast.Pos) : ∀ m, Below parts (.expr (.unary p default (.ident ⟨p, cs!"x"⟩))) m → ¬ Skips m := by
  rintro m (_ | ⟨hc, hb⟩)
  · rintro ⟨⟩
  · simp only [parts, exprParts, List.map, List.mem_singleton] at hc
    subst hc
    rcases hb with _ | ⟨hc, hb⟩
    · rintro ⟨⟩
    · cases hc

/-! ### C30: `Inspect` -/

mutual
theorem walks_inspects {S : Type} {f : Option Node → S → Bool × S} {ch : Node → List Node} : ∀ {v : Unit} {n : Node}
    {x x' : S × List (Option Node)} {tr : List (Call Unit)}, Walks (inspector (loggedF f)) ch v n x tr x' →
    ∃ l, Inspects f ch n x.1 l x'.1 ∧ x'.2 = x.2 ++ l.map some
  | _, n, x, _, _, .prune h => by
    simp only [inspector, loggedF] at h
    cases hf : f (some n) x.1 with
    | mk b s1 =>
      rw [hf] at h
      cases b with
      | true => cases h
      | false =>
        cases h
        exact ⟨[n], .stop hf, rfl⟩
  | _, n, x, _, _, .enter h hw he => by
    simp only [inspector, loggedF] at h he
    obtain ⟨l, h1, h2⟩ := walksAll_inspects hw
    cases hf : f (some n) x.1 with
    | mk b s1 =>
      rw [hf] at h
      cases b with
      | false => cases h
      | true =>
        cases h
        cases he
        exact ⟨n :: l, .go hf h1, by rw [h2]; simp⟩

theorem walksAll_inspects {S : Type} {f : Option Node → S → Bool × S} {ch : Node → List Node} : ∀ {v : Unit}
    {ns : List Node} {x x' : S × List (Option Node)} {tr : List (Call Unit)},
    WalksAll (inspector (loggedF f)) ch v ns x tr x' →
    ∃ l, InspectsAll f ch ns x.1 l x'.1 ∧ x'.2 = x.2 ++ l.map some
  | _, _, _, _, _, .nil => ⟨[], .nil, by simp⟩
  | _, _, _, _, _, .cons h1 h2 => by
    obtain ⟨a, i1, e1⟩ := walks_inspects h1
    obtain ⟨b, i2, e2⟩ := walksAll_inspects h2
    exact ⟨a ++ b, .cons i1 i2, by rw [e2, e1]; simp⟩
end

/-- C30.  `Inspect` calls `f` with `n`, and, if the result is true, inspects the children, and so on, in depth-first
order (`Inspects`).  The complete list of the arguments of the calls is `l`: `f` is never called with nil. -/
theorem C30_inspect {S : Type} (f : Option Node → S → Bool × S) (n : Node) (s : S) (l0 : List (Option Node)) :
    ∃ l s', Inspects f walkedParts n s l s' ∧ inspect n (loggedF f) (s, l0) = (s', l0 ++ l.map some) := by
  obtain ⟨tr, ⟨s', l1⟩, h1, h2, _⟩ := C29_walk (inspector (loggedF f)) () n (s, l0) []
  obtain ⟨l, h3, h4⟩ := walks_inspects h1
  simp only at h3 h4
  exact ⟨l, s', h3, h4 ▸ h2⟩

-- pruning: the callback does not descend into calls
example : (match parseFileLines false [] [cs!"echo f(x) + y"] with
    | some ⟨some f, none⟩ =>
      (inspect (.file f) (loggedF fun n (u : Unit) => match n with | some (.expr (.call ..)) => (false, u) | _ => (true, u))
        ((), [])).2.length == 5
    | _ => false) = true := by decide +kernel

end Viml.Props
