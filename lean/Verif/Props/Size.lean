/-
C76: trees are no larger than their source.
-/
import Verif.Lemmas.SizeFile
import Verif.Props.File
import Verif.Props.Grammar
import Verif.Props.Walk

namespace Viml.Props
open Viml Viml.Ast Spec

/-- The number of nodes is bounded by what is known of some list of them. -/
theorem fit_length {k : Nat} {n : Node} {l : List Node} (h : Fit k [n]) (hl : Preorder parts n l) : l.length ≤ k := by
  obtain ⟨l', h1, h2⟩ := h
  cases h1 with
  | cons h3 h4 =>
    cases h4
    rw [preorder_det hl h3]
    simpa using h2

/-- C76.  The tree of a file has at most as many nodes as the lines have characters and ends, besides its root. -/
theorem C76_lines (nv : Bool) (fn : Str) (lines : List Str) (f : Ast.File)
    (h : parseFileLines nv fn lines = some ⟨some f, none⟩) (all : List Node) (ha : Preorder parts (.file f) all) :
    all.length ≤ (lines.map fun l => l.length + 1).sum + 1 := by
  obtain ⟨used, h1, _⟩ := (C52_lines nv fn lines f).1 h
  refine fit_length (Fit.mono (Fit.node (n := .file f) (body_takes h1).2) ?_) ha
  have := mkEnv_length lines
  simp only [cells] at this
  simp only [List.length_nil]
  omega

/-- C76.  The tree that `ParseFile` returns for a source of `n` bytes has at most `n + 2` nodes, the root included. -/
theorem C76_parseFile (nv : Bool) (fn : Str) (src : List UInt8) (f : Ast.File)
    (h : parseFile nv fn src = some ⟨some f, none⟩) (all : List Node) (ha : Preorder parts (.file f) all) :
    all.length ≤ src.length + 2 := by
  have h1 := C76_lines nv fn _ f h all ha
  have h2 := scanLines_cells [] src
  simp only [cells, List.length_nil] at h2
  simp only [readlines] at h1
  omega

/-- C76.  The tree that `ParseExpr` returns for a source of `n` bytes has at most `n` nodes. -/
theorem C76_parseExpr (src : List UInt8) (a : Ast.Expr) (h : parseExpr src = some ⟨some a, none⟩) (all : List Node)
    (ha : Preorder parts (.expr a) all) : all.length ≤ src.length := by
  obtain ⟨r', h⟩ := (C51_parseExpr src a).1 h
  have he := mkEnv_ok ((readlines src).map decodeUtf8)
  have hs : Suf (mkEnv ((readlines src).map decodeUtf8)) (mkEnv ((readlines src).map decodeUtf8)).buf := List.suffix_refl _
  have h1 := gram_sadv he hs h
  have h2 : r' ≠ [] := h1.1.ne_nil he hs (by
    intro e
    have := h1.2
    rw [e] at this
    simp at this)
  have h3 := fit_length (gram_takes h).2 ha
  have h4 := mkEnv_length ((readlines src).map decodeUtf8)
  have h5 := scanLines_cells [] src
  have h6 := List.length_pos_iff.2 h2
  simp only [readlines, List.length_nil] at h3 h4 h5
  omega

/-! ### What follows for the users of a tree -/

theorem preorderAll_mem {ch : Node → List Node} {c : Node} : ∀ {ns l : List Node}, c ∈ ns → PreorderAll ch ns l →
    ∃ k, Preorder ch c k ∧ k.length ≤ l.length
  | _ :: _, _, hc, .cons h1 h2 => by
    rcases List.mem_cons.1 hc with rfl | hc
    · exact ⟨_, h1, by rw [List.length_append]; omega⟩
    · obtain ⟨k, h3, h4⟩ := preorderAll_mem hc h2
      exact ⟨k, h3, by rw [List.length_append]; omega⟩

/-- A way down a tree: each node is a child of the one before. -/
inductive Way : Node → List Node → Prop
  | here (n : Node) : Way n [n]
  | down {n c : Node} {p : List Node} : c ∈ parts n → Way c p → Way n (n :: p)

theorem way_le {n : Node} {p : List Node} (h : Way n p) : ∀ {all : List Node}, Preorder parts n all →
    p.length ≤ all.length := by
  induction h with
  | here n =>
    intro all ha
    cases ha
    simp
  | down hc _ ih =>
    intro all ha
    cases ha with
    | mk h =>
      obtain ⟨k, h3, h4⟩ := preorderAll_mem hc h
      have := ih h3
      simp only [List.length_cons]
      omega

/-- C76.  Nesting: no way from the root down to a node has more nodes. -/
theorem C76_depth (nv : Bool) (fn : Str) (src : List UInt8) (f : Ast.File)
    (h : parseFile nv fn src = some ⟨some f, none⟩) (p : List Node) (hp : Way (.file f) p) :
    p.length ≤ src.length + 2 := by
  obtain ⟨all, ha⟩ := preorder_exists (.file f)
  exact Nat.le_trans (way_le hp ha) (C76_parseFile nv fn src f h all ha)

theorem calls_length {V : Type} (tr : List (Call V)) : tr.length = (visited tr).length + tr.countP left := by
  induction tr with
  | nil => rfl
  | cons c tr ih =>
    obtain ⟨v, a, o⟩ := c
    cases a <;> simp [visited, left, List.countP_cons] at ih ⊢ <;> omega

theorem entered_le {V : Type} (tr : List (Call V)) : tr.countP entered ≤ (visited tr).length := by
  induction tr with
  | nil => exact Nat.le_refl _
  | cons c tr ih =>
    obtain ⟨v, a, o⟩ := c
    cases a <;> cases o <;> simp [visited, entered] at ih ⊢ <;> omega

/-- C76.  `Walk` on the tree of a file of `n` bytes calls `Visit` at most `2 * (n + 2)` times, whatever the visitor. -/
theorem C76_walk (nv : Bool) (fn : Str) (src : List UInt8) (f : Ast.File)
    (h : parseFile nv fn src = some ⟨some f, none⟩) {V S : Type} (visit : Visit V S) (v : V) (s : S) :
    (walk (logged visit) v (.file f) (s, [])).2.length ≤ 2 * (src.length + 2) := by
  obtain ⟨all, ha⟩ := preorder_exists (.file f)
  have h1 := (C28_order visit v (.file f) s all ha).length_le
  have h2 := C76_parseFile nv fn src f h all ha
  have h3 := C29_balanced visit v (.file f) s
  have h4 := entered_le (walk (logged visit) v (.file f) (s, [])).2
  rw [calls_length]
  omega

mutual
theorem inspects_sub {S : Type} {f : Option Node → S → Bool × S} : ∀ {n : Node} {s s' : S} {l all : List Node},
    Inspects f walkedParts n s l s' → Preorder parts n all → l.Sublist all
  | _, _, _, _, _, .stop _, .mk _ => by simp
  | _, _, _, _, _, .go _ h, .mk hl => (inspectsAll_sub h (walkedParts_sub _) hl).cons_cons _

theorem inspectsAll_sub {S : Type} {f : Option Node → S → Bool × S} : ∀ {ms ns : List Node} {s s' : S}
    {l all : List Node}, InspectsAll f walkedParts ms s l s' → ms.Sublist ns → PreorderAll parts ns all → l.Sublist all
  | _, _, _, _, _, _, .nil, _, _ => by simp
  | _, _, _, _, _, _, .cons h1 h2, hs, hl => by
    obtain ⟨l1, l2, l3, ns', e1, e2, e3, e4, _⟩ := preorderAll_split hs hl
    exact ((inspects_sub h1 e1).append (inspectsAll_sub h2 e3 e2)).trans e4
end

/-- C76.  `Inspect` on the tree of a file of `n` bytes calls its function at most `n + 2` times. -/
theorem C76_inspect (nv : Bool) (fn : Str) (src : List UInt8) (f : Ast.File)
    (h : parseFile nv fn src = some ⟨some f, none⟩) {S : Type} (g : Option Node → S → Bool × S) (s : S) :
    (inspect (.file f) (loggedF g) (s, [])).2.length ≤ src.length + 2 := by
  obtain ⟨all, ha⟩ := preorder_exists (.file f)
  obtain ⟨l, s', h1, h2⟩ := C30_inspect g (.file f) s []
  have h3 := (inspects_sub h1 ha).length_le
  have h4 := C76_parseFile nv fn src f h all ha
  rw [h2]
  simp only [List.nil_append, List.length_map]
  omega

/-! ### Examples -/

/-- The number of nodes that `Inspect` meets. -/
def met (src : List UInt8) : Option Nat :=
  match parseFile false [] src with
  | some ⟨some f, none⟩ => some (inspect (.file f) (fun _ k => (true, k + 1)) 0)
  | _ => none

-- `1`, a line with a range only, gives the file and a command
example : met [49] = some 2 := by decide +kernel
-- `y`, `let z=-x[a.b]` and a comment: ten nodes, the comment included
example : met [121, 10, 108, 101, 116, 32, 122, 61, 45, 120, 91, 97, 46, 98, 93, 32, 34, 10] = some 11 := by decide +kernel
-- each empty line of a heredoc is a node: `let x=<<E`, three empty lines, `E`
example : met [108, 101, 116, 32, 120, 61, 60, 60, 69, 10, 10, 10, 10, 69] = some 7 := by decide +kernel
-- the bound for expressions cannot be lowered: `a.b` and `-x` have as many nodes as characters
example : (match parseExpr [97, 46, 98] with
    | some ⟨some a, none⟩ => inspect (.expr a) (fun _ k => (true, k + 1)) 0 == 3
    | _ => false) = true := by decide +kernel
example : (match parseExpr [45, 120] with
    | some ⟨some a, none⟩ => inspect (.expr a) (fun _ k => (true, k + 1)) 0 == 2
    | _ => false) = true := by decide +kernel

end Viml.Props
