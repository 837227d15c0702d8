/-
The tree as `Compile` leaves it.
-/
import Verif.Lemmas.CompFile

namespace Viml
namespace Comp
open Spec

/-- A statement as left by the compiler, whether it is a part of a block or not. -/
def cut (s : Ast.Stmt) : Ast.Stmt := if isPart (kind s) then afterP s else after s

theorem afterL_cons {s : Ast.Stmt} (h : isPart (kind s) = false) (ss : List Ast.Stmt) :
    afterL (s :: ss) = after s :: afterL ss := by
  cases s <;> first | (simp [kind, isPart] at h; done) | (rw [afterL] <;> nofun)

theorem afterL_id {s : Ast.Stmt} {ss : List Ast.Stmt} (h : after s = s) (hs : afterL ss = ss) :
    afterL (s :: ss) = s :: ss := by
  cases hp : isPart (kind s) with
  | false => rw [afterL_cons hp, h, hs]
  | true => cases s <;> first | (simp [kind, isPart] at hp; done) | rw [afterL]

theorem afterL_map {l : List Ast.Stmt} (h : NoParts l) : afterL l = l.map cut := by
  induction l with
  | nil => rw [afterL]; rfl
  | cons s l ih =>
    have hs := h s (by simp)
    rw [afterL_cons hs, ih fun x hx => h x (by simp [hx])]
    simp [cut, hs]

theorem afterPs_map {l : List Ast.Stmt} (h : ∀ x ∈ l, isPart (kind x) = true) : afterPs l = l.map cut := by
  induction l with
  | nil => rw [afterPs]; rfl
  | cons s l ih =>
    have hs := h s (by simp)
    rw [afterPs, ih fun x hx => h x (by simp [hx])]
    simp [cut, hs]

theorem afterO_map {o : Option Ast.Stmt} (h : ∀ x, o = some x → isPart (kind x) = true) : afterO o = o.map cut := by
  cases o with
  | none => rw [afterO]; rfl
  | some s =>
    have hs := h s rfl
    rw [afterO]
    simp [cut, hs]

theorem kind_cut (s : Ast.Stmt) : kind (cut s) = kind s := by
  cases s <;> simp [cut, kind, isPart, after, afterP]

theorem noParts_cut {l : List Ast.Stmt} (h : NoParts l) : NoParts (l.map cut) := by
  intro x hx
  obtain ⟨y, hy, rfl⟩ := List.mem_map.1 hx
  rw [kind_cut]; exact h y hy

/-- The tree without the final `...` of parameter lists, for blocks whose parts are in place. -/
def cutMap : Ast.Stmt → Ast.Stmt
  | .function q ea b n ps da at_ e => .function q ea (b.map cut) n (cutDots ps) da at_ e
  | .if_ q ea b c eis el e => .if_ q ea (b.map cut) c (eis.map cut) (el.map cut) e
  | .elseIf q ea b c => .elseIf q ea (b.map cut) c
  | .else_ q ea b => .else_ q ea (b.map cut)
  | .while_ q ea b c e => .while_ q ea (b.map cut) c e
  | .for_ q ea b l ls rest r e => .for_ q ea (b.map cut) l ls rest r e
  | .try_ q ea b cs fi e => .try_ q ea (b.map cut) (cs.map cut) (fi.map cut) e
  | .catch_ q ea b p => .catch_ q ea (b.map cut) p
  | .finally_ q ea b => .finally_ q ea (b.map cut)
  | s => s

theorem cut_eq {s : Ast.Stmt} (h : wellPlaced s) : cut s = cutMap s := by
  cases s <;> simp only [wellPlaced] at h <;>
    simp only [cut, kind, isPart, after, afterP, cutMap, Bool.false_eq_true, if_true, if_false]
  case function => rw [afterL_map h]
  case if_ =>
    rw [afterL_map h.1, afterPs_map fun x hx => by rw [h.2.1 x hx]; rfl, afterO_map fun x hx => by rw [h.2.2 x hx]; rfl]
  case elseIf => rw [afterL_map h]
  case else_ => rw [afterL_map h]
  case while_ => rw [afterL_map h]
  case for_ => rw [afterL_map h]
  case try_ =>
    rw [afterL_map h.1, afterPs_map fun x hx => by rw [h.2.1 x hx]; rfl, afterO_map fun x hx => by rw [h.2.2 x hx]; rfl]
  case catch_ => rw [afterL_map h]
  case finally_ => rw [afterL_map h]

theorem subStmts_cut {s : Ast.Stmt} (h : wellPlaced s) : subStmts (cut s) = (subStmts s).map cut := by
  rw [cut_eq h]
  cases s <;> simp [subStmts, cutMap, Option.toList_map]

theorem printable_cut {s : Ast.Stmt} (h : Printable s) : Printable (cut s) := by
  obtain ⟨h1, h2, h3⟩ := h
  have hx : exprsOf (cut s) = exprsOf s := by rw [cut_eq h1]; cases s <;> rfl
  have ha : exArgOf (cut s) = exArgOf s := by rw [cut_eq h1]; cases s <;> rfl
  refine ⟨?_, ?_, ?_, ?_⟩
  · rw [cut_eq h1]
    have hk : ∀ (l : List Ast.Stmt) k, (∀ x ∈ l, kind x = k) → ∀ x ∈ l.map cut, kind x = k := by
      intro l k h x hx
      obtain ⟨y, hy, rfl⟩ := List.mem_map.1 hx
      rw [kind_cut]; exact h y hy
    have hk' : ∀ (l : Option Ast.Stmt) k, (∀ x, l = some x → kind x = k) → ∀ x, l.map cut = some x → kind x = k := by
      intro l k h x hx
      obtain ⟨y, hy, rfl⟩ := Option.map_eq_some_iff.1 hx
      rw [kind_cut]; exact h y hy
    cases s <;> simp only [wellPlaced, cutMap] at h1 ⊢ <;> first
      | exact noParts_cut h1
      | exact ⟨noParts_cut h1.1, hk _ _ h1.2.1, hk' _ _ h1.2.2⟩
  · revert h2 ha
    rw [cut_eq h1]
    cases s <;> simp [hasCmd, exArgOf, cutMap]
  · rw [kind_cut, hx, ha]; exact h3.1
  · intro q t e
    apply h3.2 q t
    revert e
    rw [cut_eq h1]
    cases s <;> simp [cutMap]

theorem all_cut {ctx : List Kind} {s : Ast.Stmt} (h : AllS (fun _ s => Printable s) ctx s) :
    AllS (fun _ s => Printable s) ctx (cut s) := by
  induction h with
  | mk ctx s h1 _ ih =>
    refine .mk _ _ (printable_cut h1) ?_
    rw [subStmts_cut h1.1, kind_cut]
    intro x hx
    obtain ⟨y, hy, rfl⟩ := List.mem_map.1 hx
    exact ih y hy

/-- Size of a list of lines. -/
def size (ls : List Str) : Nat := (unlines ls).length

theorem size_cons (l : Str) (ls : List Str) : size (l :: ls) = l.length + 1 + size ls := by
  simp [size, unlines]; omega

theorem size_append (a b : List Str) : size (a ++ b) = size a + size b := by
  simp [size, unlines_append]

theorem size_close (l : Str) (ls : List Str) : size (close (l :: ls)) = size (l :: ls) + 1 := by
  induction ls generalizing l with
  | nil => simp [close, size, unlines]
  | cons m ls ih => rw [close, size_cons, ih, size_cons l]; omega

theorem words_length_snoc (l : List Str) (a : Str) : (words l).length + a.length ≤ (words (l ++ [a])).length := by
  induction l with
  | nil => simp [words]
  | cons x l ih =>
    cases l with
    | nil => simp [words]
    | cons y l => simp [words] at *; omega

theorem funcLine_cut (d : Nat) (n : Ast.Expr) (ps : List Ast.Ident) (da : List Ast.Expr)
    (hd : (ps.map (·.name)).getLast? = some cs!"...") (hn : cs!"..." ∉ (ps.map (·.name)).dropLast) :
    (funcLine' d n (cutDots ps) da).length < (funcLine' d n ps da).length := by
  have hps : ps ≠ [] := by rintro rfl; simp at hd
  unfold cutDots
  rw [if_pos hd]
  have h2 : (ps.dropLast.map (·.name)).getLast? ≠ some cs!"..." := by
    intro h
    apply hn
    rw [← List.map_dropLast]
    exact List.mem_of_getLast? h
  have hs : sigWords ps da = sigWords ps.dropLast da ++ [cs!". ..."] := by
    simp only [sigWords]
    rw [if_pos hd, if_neg h2, List.map_dropLast]
  unfold funcLine'
  rw [if_neg hps, hs]
  have := words_length_snoc (sigWords ps.dropLast da) cs!". ..."
  split <;> simp only [List.length_append, List.length_cons, List.length_nil] at * <;> omega

/-- `...` only comes last. -/
def DotsLast (s : Ast.Stmt) : Prop := cs!"..." ∉ ((paramsOf s).map (·.name)).dropLast

theorem cutDots_eq {ps : List Ast.Ident} (h : (ps.map (·.name)).getLast? ≠ some cs!"...") : cutDots ps = ps := by
  unfold cutDots; rw [if_neg h]

theorem size_linesL {d : Nat} {l : List Ast.Stmt} {ctx : List Kind}
    (h : ∀ s ∈ l, size (lines funcLine' d (cut s)) ≤ size (lines funcLine' d s) ∧
      (AllS (fun _ s => ¬ dots s) ctx s ∨ size (lines funcLine' d (cut s)) < size (lines funcLine' d s))) :
    size (linesL funcLine' d (l.map cut)) ≤ size (linesL funcLine' d l) ∧
      ((∀ s ∈ l, AllS (fun _ s => ¬ dots s) ctx s) ∨
        size (linesL funcLine' d (l.map cut)) < size (linesL funcLine' d l)) := by
  induction l with
  | nil => simp [linesL]
  | cons s l ih =>
    rw [List.forall_mem_cons] at h
    obtain ⟨h1, h2⟩ := h.1
    obtain ⟨h3, h4⟩ := ih h.2
    simp only [List.map_cons, linesL, size_append, List.forall_mem_cons]
    refine ⟨by omega, ?_⟩
    rcases h2 with h2 | h2
    · rcases h4 with h4 | h4
      · exact .inl ⟨h2, h4⟩
      · right; omega
    · right; omega

theorem size_linesO {d : Nat} {l : Option Ast.Stmt} {ctx : List Kind}
    (h : ∀ s ∈ l.toList, size (lines funcLine' d (cut s)) ≤ size (lines funcLine' d s) ∧
      (AllS (fun _ s => ¬ dots s) ctx s ∨ size (lines funcLine' d (cut s)) < size (lines funcLine' d s))) :
    size (linesO funcLine' d (l.map cut)) ≤ size (linesO funcLine' d l) ∧
      ((∀ s ∈ l.toList, AllS (fun _ s => ¬ dots s) ctx s) ∨
        size (linesO funcLine' d (l.map cut)) < size (linesO funcLine' d l)) := by
  cases l with
  | none => simp [linesO]
  | some s => simpa [linesO] using h

/-- Without `...` the output gets shorter. -/
theorem size_cut {ctx : List Kind} {s : Ast.Stmt} (h : AllS (fun _ s => Printable s ∧ DotsLast s) ctx s) (d : Nat) :
    size (lines funcLine' d (cut s)) ≤ size (lines funcLine' d s) ∧
      (AllS (fun _ s => ¬ dots s) ctx s ∨ size (lines funcLine' d (cut s)) < size (lines funcLine' d s)) := by
  induction h generalizing d with
  | mk ctx s h1 h0 ih =>
    clear h0
    obtain ⟨⟨hw, -⟩, hl⟩ := h1
    have e := cut_eq hw
    clear hw
    have one : ∀ {b : List Ast.Stmt} {k : Kind}, (∀ x ∈ b, ∀ d, size (lines funcLine' d (cut x)) ≤ size (lines funcLine' d x) ∧
        (AllS (fun _ s => ¬ dots s) (k :: ctx) x ∨ size (lines funcLine' d (cut x)) < size (lines funcLine' d x))) →
        ∀ d, _ := fun {b k} h d => size_linesL (l := b) (d := d) (ctx := k :: ctx) fun x hx => h x hx d
    cases s <;> simp only [subStmts, kind] at ih <;> simp only [cutMap] at e <;> rw [e]
    case function q ea b n ps da at_ en =>
      obtain ⟨i1, i2⟩ := one ih (d + 1)
      simp only [lines, size_close, size_cons]
      by_cases hd : (ps.map (·.name)).getLast? = some cs!"..."
      · have := funcLine_cut d n ps da hd hl
        exact ⟨by omega, .inr (by omega)⟩
      · rw [cutDots_eq hd]
        refine ⟨by omega, i2.imp (fun i => .mk _ _ hd i) fun i => by omega⟩
    case if_ q ea b c eis el en =>
      have m1 : ∀ x ∈ b, x ∈ b ++ eis ++ el.toList := fun x hx => by simp [hx]
      have m2 : ∀ x ∈ eis, x ∈ b ++ eis ++ el.toList := fun x hx => by simp [hx]
      have m3 : ∀ x ∈ el.toList, x ∈ b ++ eis ++ el.toList := fun x hx => by simp only [List.mem_append, hx, or_true]
      obtain ⟨i1, i2⟩ := one (fun x hx => ih x (m1 x hx)) (d + 1)
      obtain ⟨i3, i4⟩ := one (fun x hx => ih x (m2 x hx)) d
      obtain ⟨i5, i6⟩ := size_linesO (l := el) (ctx := .if_ :: ctx) (d := d) (fun x hx => ih x (m3 x hx) d)
      simp only [lines, size_close, size_cons, size_append, firstLine]
      refine ⟨by omega, ?_⟩
      rcases i2 with i2 | i2
      · rcases i4 with i4 | i4
        · rcases i6 with i6 | i6
          · refine .inl (.mk _ _ (by simp [dots, paramsOf]) ?_)
            intro x hx
            simp only [subStmts, List.mem_append] at hx
            rcases hx with (hx | hx) | hx
            · exact i2 x hx
            · exact i4 x hx
            · exact i6 x hx
          · right; omega
        · right; omega
      · right; omega
    case try_ q ea b cs fi en =>
      have m1 : ∀ x ∈ b, x ∈ b ++ cs ++ fi.toList := fun x hx => by simp [hx]
      have m2 : ∀ x ∈ cs, x ∈ b ++ cs ++ fi.toList := fun x hx => by simp [hx]
      have m3 : ∀ x ∈ fi.toList, x ∈ b ++ cs ++ fi.toList := fun x hx => by simp only [List.mem_append, hx, or_true]
      obtain ⟨i1, i2⟩ := one (fun x hx => ih x (m1 x hx)) (d + 1)
      obtain ⟨i3, i4⟩ := one (fun x hx => ih x (m2 x hx)) d
      obtain ⟨i5, i6⟩ := size_linesO (l := fi) (ctx := .try_ :: ctx) (d := d) (fun x hx => ih x (m3 x hx) d)
      simp only [lines, size_close, size_cons, size_append, firstLine]
      refine ⟨by omega, ?_⟩
      rcases i2 with i2 | i2
      · rcases i4 with i4 | i4
        · rcases i6 with i6 | i6
          · refine .inl (.mk _ _ (by simp [dots, paramsOf]) ?_)
            intro x hx
            simp only [subStmts, List.mem_append] at hx
            rcases hx with (hx | hx) | hx
            · exact i2 x hx
            · exact i4 x hx
            · exact i6 x hx
          · right; omega
        · right; omega
      · right; omega
    case elseIf | else_ | while_ | for_ | catch_ | finally_ =>
      obtain ⟨i1, i2⟩ := one ih (d + 1)
      simp only [lines, size_close, size_cons, firstLine]
      exact ⟨by omega, i2.imp (fun i => .mk _ _ (by simp [dots, paramsOf]) i) fun i => by omega⟩
    all_goals
      exact ⟨Nat.le_refl _, .inl (.mk _ _ (by simp [dots, paramsOf]) (by simp [subStmts]))⟩

/-- Nothing changes in a tree without `...`. -/
theorem after_id {ctx : List Kind} {s : Ast.Stmt} (h : AllS (fun _ s => ¬ dots s) ctx s) :
    after s = s ∧ afterP s = s := by
  induction h with
  | mk ctx s h1 h0 ih =>
    clear h0
    have hL : ∀ l : List Ast.Stmt, (∀ x ∈ l, after x = x ∧ afterP x = x) → afterL l = l := by
      intro l
      induction l with
      | nil => intro; rw [afterL]
      | cons x l ihl =>
        intro hx
        rw [List.forall_mem_cons] at hx
        exact afterL_id hx.1.1 (ihl hx.2)
    have hP : ∀ l : List Ast.Stmt, (∀ x ∈ l, after x = x ∧ afterP x = x) → afterPs l = l := by
      intro l
      induction l with
      | nil => intro; rw [afterPs]
      | cons x l ihl =>
        intro hx
        rw [List.forall_mem_cons] at hx
        rw [afterPs, hx.1.2, ihl hx.2]
    have hO : ∀ l : Option Ast.Stmt, (∀ x ∈ l.toList, after x = x ∧ afterP x = x) → afterO l = l := by
      intro l hx
      cases l with
      | none => rw [afterO]
      | some x => rw [afterO, (hx x (by simp)).2]
    cases s <;> simp only [subStmts] at ih <;> simp only [after, afterP, and_true, true_and]
    case function => rw [hL _ ih, cutDots_eq (by simpa [dots, paramsOf] using h1)]
    case if_ q ea b c eis el e =>
      rw [hL _ fun x hx => ih x (by simp [hx]), hP _ fun x hx => ih x (by simp [hx]),
        hO _ fun x hx => ih x (by simp only [List.mem_append, hx, or_true])]
    case try_ q ea b cs fi e =>
      rw [hL _ fun x hx => ih x (by simp [hx]), hP _ fun x hx => ih x (by simp [hx]),
        hO _ fun x hx => ih x (by simp only [List.mem_append, hx, or_true])]
    all_goals rw [hL _ ih]

theorem afterFile_id {f : Ast.File} (h : AllF (fun _ s => ¬ dots s) f) : afterFile f = f := by
  have : afterL f.body = f.body := by
    have h' : ∀ s ∈ f.body, after s = s := fun s hs => (after_id (h s hs)).1
    generalize f.body = l at h'
    induction l with
    | nil => rw [afterL]
    | cons x l ihl =>
      rw [List.forall_mem_cons] at h'
      exact afterL_id h'.1 (ihl h'.2)
  cases f
  simp_all [afterFile]

theorem compile_after {f : Ast.File} (h : AllF (fun _ s => Printable s ∧ DotsLast s) f) (hp : NoParts f.body) :
    compileFile (afterFile f) = compileFile f ↔ AllF (fun _ s => ¬ dots s) f := by
  constructor
  · intro e
    have ha := afterL_map hp
    rw [compileFile_eq (h.imp fun _ _ x => x.1) hp, compileFile_eq (f := afterFile f)] at e
    · have hs := size_linesL (d := 0) (l := f.body) (ctx := []) fun s hs => size_cut (h s hs) 0
      rcases hs.2 with h1 | h1
      · exact h1
      · exfalso
        injection e with e
        rw [← ha] at h1
        unfold size at h1
        rw [show (afterFile f).body = afterL f.body from rfl] at e
        rw [e] at h1
        exact Nat.lt_irrefl _ h1
    · intro s hs
      rw [show (afterFile f).body = afterL f.body from rfl, ha] at hs
      obtain ⟨y, hy, rfl⟩ := List.mem_map.1 hs
      exact all_cut ((h y hy).imp fun _ _ x => x.1)
    · rw [show (afterFile f).body = afterL f.body from rfl, ha]
      exact noParts_cut hp
  · intro h; rw [afterFile_id h]

end Comp
end Viml
