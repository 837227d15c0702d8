/-
Files returned by `ParseFile` can be printed.
-/
import Verif.Lemmas.ApiFile
import Verif.Lemmas.Comp

namespace Viml
open Spec

/-! ### No line breaks in lines -/

theorem decodeGo_nl (k : Nat) (bs : List UInt8) (h : (10 : UInt8) ∉ bs) : '\n' ∉ decodeGo k bs := by
  induction bs generalizing k with
  | nil => cases k <;> simp [decodeGo]
  | cons b bs ih =>
    have hb : (10 : UInt8) ∉ bs := fun hm => h (List.mem_cons_of_mem _ hm)
    cases k with
    | succ k => rw [decodeGo]; exact ih k hb
    | zero =>
      rw [decodeGo, List.mem_cons, not_or]
      refine ⟨fun e => ?_, ih _ hb⟩
      rcases decodeRune_sound b bs with ⟨rest, h1, _⟩ | h2
      · rw [← e, show String.utf8EncodeChar '\n' = [10] by decide] at h1
        rw [h1] at h
        simp at h
      · rw [h2] at e
        exact absurd e (by decide)

theorem chopCR_mem {l : List UInt8} {b : UInt8} (h : b ∈ chopCR l) : b ∈ l := by
  unfold chopCR at h
  split at h
  · exact List.mem_of_mem_take h
  · exact h

theorem readlines_nl (src : List UInt8) : ∀ l ∈ (readlines src).map decodeUtf8, '\n' ∉ l := by
  obtain ⟨segs, last, h1, h2, rfl⟩ := Props.C39_decompose src
  rw [Props.C39_lines segs last h1 h2]
  intro l hl
  rw [List.map_map, List.mem_map] at hl
  obtain ⟨s, hs, rfl⟩ := hl
  have hs' := (List.takeWhile_sublist _).subset hs
  refine decodeGo_nl 0 _ fun hm => ?_
  have := chopCR_mem hm
  unfold linesOf at hs'
  rcases List.mem_append.mp hs' with h | h
  · exact h1 s h this
  · split at h
    · simp at h
    · rw [List.mem_singleton] at h; subst h; exact h2 this

theorem joinFrom_nl {cur : Str} {ls : List Str} (h1 : '\n' ∉ cur) (h2 : ∀ l ∈ ls, '\n' ∉ l) :
    ∀ l ∈ joinFrom cur ls, '\n' ∉ l := by
  induction ls generalizing cur with
  | nil => simpa [joinFrom] using h1
  | cons x ls ih =>
    rw [List.forall_mem_cons] at h2
    rw [joinFrom]
    split
    · rename_i rest hr
      refine ih ?_ h2.2
      rw [List.mem_append, not_or]
      refine ⟨h1, fun hm => h2.1 ?_⟩
      unfold afterBackslash at hr
      split at hr
      · rename_i rest' hd
        cases hr
        exact (List.dropWhile_sublist _).subset (by rw [hd]; exact List.mem_cons_of_mem _ hm)
      · simp at hr
    · rw [List.forall_mem_cons]
      exact ⟨h1, ih h2.1 h2.2⟩

/-- No cell holds a line break. -/
def NoNL (env : Env) : Prop := ∀ c ∈ env.buf, c.c ≠ some '\n'

theorem mkEnv_nl {lines : List Str} (h : ∀ l ∈ lines, '\n' ∉ l) : NoNL (mkEnv lines) := by
  have hl : ∀ l ∈ logicalLines lines, '\n' ∉ l := by
    cases lines with
    | nil => simp [logicalLines]
    | cons l ls =>
      rw [List.forall_mem_cons] at h
      exact joinFrom_nl h.1 h.2
  intro c hc e
  have : some '\n' ∈ (mkEnv lines).buf.map Cell.c := List.mem_map.mpr ⟨c, hc, e⟩
  rw [Props.C01_logical_lines, List.mem_flatMap] at this
  obtain ⟨l, h1, h2⟩ := this
  simp at h2
  exact hl l h1 h2

theorem NoNL.reads {env : Env} (h : NoNL env) {r r' : List Cell} {v : Str} (hs : r <:+ env.buf)
    (hr : Reads r v r') : '\n' ∉ v := by
  obtain ⟨p, rfl, hp⟩ := hr
  intro hm
  have : some '\n' ∈ p.map Cell.c := by rw [hp]; exact List.mem_map.mpr ⟨_, hm, rfl⟩
  obtain ⟨c, h1, h2⟩ := List.mem_map.mp this
  exact h c (hs.subset (List.mem_append_left _ h1)) h2

theorem NoNL.textAt {env : Env} (h : NoNL env) {fn : Str} {q : Ast.Pos} {v : Str} (ht : TextAt env fn q v) :
    '\n' ∉ v := by
  obtain ⟨r, r', h1, h2⟩ := ht
  exact h.reads h1.1 h2

/-! ### Expressions -/

theorem texts_mem {l : List SX} {c : Char} (h : c ∈ SX.texts l) : c = ' ' ∨ ∃ x ∈ l, c ∈ x.text := by
  induction l with
  | nil => simp [SX.texts] at h
  | cons x l ih =>
    cases l with
    | nil => exact Or.inr ⟨x, by simp, by simpa [SX.texts] using h⟩
    | cons y l =>
      rw [SX.texts, List.mem_append, List.mem_cons] at h
      rcases h with h | h | h
      · exact Or.inr ⟨x, by simp, h⟩
      · exact Or.inl h
      · rcases ih h with h | ⟨z, hz, h⟩
        · exact Or.inl h
        · exact Or.inr ⟨z, List.mem_cons_of_mem _ hz, h⟩

theorem list_nl {l : List SX} (h : ∀ x ∈ l, '\n' ∉ x.text) : '\n' ∉ (SX.list l).text := by
  intro hm
  rw [SX.text] at hm
  simp only [List.cons_append, List.mem_cons, List.mem_append, List.not_mem_nil, or_false] at hm
  rcases hm with hm | hm | hm
  · exact absurd hm (by decide)
  · rcases texts_mem hm with h1 | ⟨x, h1, h2⟩
    · exact absurd h1 (by decide)
    · exact h x h1 h2
  · exact absurd hm (by decide)

theorem atom_nl {s : Str} (h : '\n' ∉ s) : '\n' ∉ (SX.atom s).text := by simpa [SX.text] using h

theorem sxs_nl {l : List Ast.Expr} (h : ∀ e ∈ l, '\n' ∉ (sx e).text) : ∀ x ∈ sxs l, '\n' ∉ x.text := by
  induction l with
  | nil => simp [sxs]
  | cons e l ih =>
    rw [List.forall_mem_cons] at h
    rw [sxs, List.forall_mem_cons]
    exact ⟨h.1, ih h.2⟩

theorem sxPairs_nl {l : List (Ast.Expr × Ast.Expr)} (h : ∀ e ∈ l, '\n' ∉ (sx e.1).text ∧ '\n' ∉ (sx e.2).text) :
    ∀ x ∈ sxPairs l, '\n' ∉ x.text := by
  induction l with
  | nil => simp [sxPairs]
  | cons e l ih =>
    rw [List.forall_mem_cons] at h
    obtain ⟨k, v⟩ := e
    rw [sxPairs, List.forall_mem_cons]
    exact ⟨list_nl (by simpa using h.1), ih h.2⟩

theorem sxCat_nl {l : List Ast.Expr} (h : ∀ e ∈ l, '\n' ∉ (sx e).text) : '\n' ∉ sxCat l := by
  induction l with
  | nil => simp [sxCat]
  | cons e l ih =>
    rw [List.forall_mem_cons] at h
    rw [sxCat, List.mem_append, not_or]
    exact ⟨h.1, ih h.2⟩

theorem tok_nl (op : Tok) : '\n' ∉ op.str := by cases op <;> decide

theorem opName_nl (op : Tok) : '\n' ∉ opName op := by cases op <;> decide

theorem litKey_nl {env : Env} {fn : Str} (hn : NoNL env) {e : Ast.Expr} (h : litKey env fn e) :
    '\n' ∉ (sx e).text := by
  cases e <;> simp only [litKey] at h
  obtain ⟨rfl, s, r, r1, rfl, hne, hs, hr, rfl, _⟩ := h
  have := hn.reads hs hr
  refine atom_nl ?_
  simp [this]

theorem sx_nl {env : Env} {fn : Str} (hn : NoNL env) {e : Ast.Expr}
    (h : AllE (OkE env fn) (litKey env fn) e) : '\n' ∉ (sx e).text := by
  induction h with
  | mk e hok _ _ ih1 ih2 =>
    have ht : ∀ x ∈ ownText e, '\n' ∉ x.2 := fun x hx => hn.textAt (hok.text x hx)
    have hp := hok.prec
    cases e with
    | ternary q c l r =>
      simp only [subs, List.forall_mem_cons] at ih1
      rw [sx]; exact list_nl (by simp [SX.text, ih1])
    | binary l q op r =>
      simp only [subs, List.forall_mem_cons] at ih1
      rw [sx]; exact list_nl (by simp [SX.text, ih1, opName_nl])
    | unary q op x =>
      simp only [subs, List.forall_mem_cons] at ih1
      rw [sx]; exact list_nl (by simp [SX.text, ih1, tok_nl])
    | subscript q l r =>
      simp only [subs, List.forall_mem_cons] at ih1
      rw [sx]; exact list_nl (by simp [SX.text, ih1])
    | slice x q lo hi =>
      simp only [subs, List.forall_mem_cons] at ih1
      have hl : '\n' ∉ (sxNil lo).text := by
        cases lo with
        | none => exact atom_nl (by decide)
        | some e => rw [sxNil]; exact ih1.2 e (by simp)
      have hh : '\n' ∉ (sxNil hi).text := by
        cases hi with
        | none => exact atom_nl (by decide)
        | some e => rw [sxNil]; exact ih1.2 e (by simp)
      rw [sx]; exact list_nl (by simp [SX.text, ih1.1, hl, hh])
    | method l m q as =>
      simp only [subs, List.forall_mem_cons] at ih1
      rw [sx]
      refine list_nl ?_
      simp only [List.forall_mem_cons, List.not_mem_nil, false_imp_iff, implies_true, and_true]
      refine ⟨atom_nl (by decide), ih1.1, list_nl ?_⟩
      rw [List.forall_mem_cons]
      exact ⟨ih1.2.1, sxs_nl ih1.2.2⟩
    | call f q as =>
      simp only [subs, List.forall_mem_cons] at ih1
      rw [sx]
      refine list_nl ?_
      rw [List.forall_mem_cons]
      exact ⟨ih1.1, sxs_nl ih1.2⟩
    | dot l q i =>
      simp only [subs, List.forall_mem_cons] at ih1
      have := ht (i.pos, i.name) (by simp [ownText])
      rw [sx]; exact list_nl (by simp [SX.text, ih1, this])
    | basicLit q k v => rw [sx]; exact atom_nl (ht (q, v) (by simp [ownText]))
    | list q vs =>
      rw [sx]
      refine list_nl ?_
      rw [List.forall_mem_cons]
      exact ⟨atom_nl (by decide), sxs_nl ih1⟩
    | dict q kvs =>
      rw [sx]
      refine list_nl ?_
      rw [List.forall_mem_cons]
      refine ⟨atom_nl (by decide), sxPairs_nl fun kv hkv => ⟨?_, ih1 _ (List.mem_map.mpr ⟨kv, hkv, rfl⟩)⟩⟩
      by_cases hk : litKey env fn kv.1
      · exact litKey_nl hn hk
      · exact ih2 _ (List.mem_map.mpr ⟨kv, hkv, rfl⟩) hk
    | curlyName q ps => rw [sx]; exact atom_nl (sxCat_nl ih1)
    | curlyNameLit q v => rw [sx]; exact atom_nl (ht (q, v) (by simp [ownText]))
    | curlyNameExpr q e =>
      simp only [subs, List.forall_mem_cons] at ih1
      rw [sx]; exact atom_nl (by simp [ih1])
    | ident i => rw [sx]; exact atom_nl (ht (i.pos, i.name) (by simp [ownText]))
    | lambda q ps e =>
      simp only [subs, List.forall_mem_cons] at ih1
      rw [sx]
      refine list_nl ?_
      simp only [List.forall_mem_cons, List.not_mem_nil, false_imp_iff, implies_true, and_true]
      refine ⟨atom_nl (by decide), list_nl ?_, ih1.1⟩
      intro x hx
      obtain ⟨i, hi, rfl⟩ := List.mem_map.mp hx
      exact atom_nl (ht (i.pos, i.name) (List.mem_map.mpr ⟨i, hi, rfl⟩))
    | paren q x =>
      simp only [subs, List.forall_mem_cons] at ih1
      rw [sx]; exact ih1.1
    | heredoc q fl m b => exact hp.elim

/-! ### Statements -/

theorem cmdNames_nl (s : Ast.Stmt) : ∀ n ∈ cmdNames s, '\n' ∉ n := by
  cases s <;> simp [cmdNames]

theorem OkS.printable {env : Env} {fn : Str} (hn : NoNL env) {ctx : List Kind} {s : Ast.Stmt}
    (h : OkS env fn ctx s) : Printable s := by
  have hcmd : hasCmd s := by
    have hname := h.name
    cases s
    case comment => trivial
    case excmd => trivial
    case function => trivial
    case echoCmd => obtain ⟨⟨c, h1, _⟩, _⟩ := hname; exact ⟨_, c, rfl, h1⟩
    all_goals
      obtain ⟨ea, n, h1, ⟨c, h2, _⟩, _⟩ := hname
      exact ⟨ea, c, h1, h2⟩
  refine ⟨?_, hcmd, fun hk => ⟨fun e he => ?_, fun ea hea => ?_⟩, ?_⟩
  · have hp := h.parts
    cases s <;> first | exact trivial | exact hp | exact hp.1 | exact ⟨hp.1, hp.2.1, hp.2.2.1⟩
  · have hh : isHeredoc e = false := by
      have ht := h.text
      cases s <;> first | exact absurd rfl hk | exact ht e he | (simp [exprsOf] at he)
    exact sx_nl hn (h.exprs e he hh).2
  · have hname := h.name
    have : ∃ n, Named ea n ∧ n ∈ cmdNames s := by
      cases s <;> first
        | exact absurd rfl hk
        | (obtain ⟨ea', n, h1, h2, h3⟩ := hname; rw [hea] at h1; cases h1; exact ⟨n, h2, h3⟩)
    obtain ⟨n, ⟨c, h1, rfl⟩, h2⟩ := this
    rw [nameOf, h1]
    exact cmdNames_nl s _ h2
  · rintro q t rfl
    obtain ⟨r, r', h1, h2, _⟩ := h.text
    have := hn.reads h1.1 h2
    intro hm
    exact this (List.mem_cons_of_mem _ hm)

/-- Every file `ParseFile` returns can be printed. -/
theorem parseFile_printable {nv : Bool} {fn : Str} {src : List UInt8} {f : Ast.File} {er : Option ApiErr}
    (h : parseFile nv fn src = some ⟨some f, er⟩) :
    AllF (fun _ s => Printable s) f ∧ NoParts f.body := by
  have hn := mkEnv_nl (readlines_nl src)
  have hf := (parseFileLines_all h).2
  exact ⟨hf.all.imp fun _ _ hs => hs.printable hn, hf.parts⟩

end Viml
