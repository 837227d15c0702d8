/-
What `ParseFile` returns, in terms of the specification vocabulary.
-/
import Verif.Lemmas.StmtAst
import Verif.Lemmas.StmtCmds
import Verif.Lemmas.Api

namespace Viml
open Spec

theorem Spec.AllS.imp {P Q : List Kind → Ast.Stmt → Prop} (hPQ : ∀ ctx s, P ctx s → Q ctx s)
    {ctx : List Kind} {s : Ast.Stmt} (h : AllS P ctx s) : AllS Q ctx s := by
  induction h with
  | mk ctx s h1 _ ih => exact .mk ctx s (hPQ ctx s h1) ih

theorem Spec.AllF.imp {P Q : List Kind → Ast.Stmt → Prop} (hPQ : ∀ ctx s, P ctx s → Q ctx s)
    {f : Ast.File} (h : AllF P f) : AllF Q f :=
  fun s hs => (h s hs).imp hPQ

/-- The file node and all its statements are as specified. -/
structure OkFile (lines : List Str) (fn : Str) (f : Ast.File) : Prop where
  start : At (mkEnv lines) fn f.start (mkEnv lines).buf
  all : AllF (OkS (mkEnv lines) fn) f
  parts : NoParts f.body

theorem toplevel_export {nv : Bool} {fn : Str} {lines : List Str} {f : VFile} {r' : List Cell}
    (hr : (parseToplevel nv).run (mkEnv lines) (mkEnv lines).buf = .ok f r') :
    ∃ a, Export.file fn f = some a ∧ OkFile lines fn a := by
  have he := mkEnv_ok lines
  have h := wp_run (parseToplevel_spec (nv := nv) he (good_closed (fn := fn) he)) hr
  obtain ⟨_, bs, st, hs, h1, h2, rfl⟩ := h
  have hg : StackGood (mkEnv lines) fn ((initState nv).cur :: (initState nv).stack) :=
    ⟨⟨Or.inl rfl, by simp [initState], by simp [initState], by simp [initState], by simp [initState],
      by simp [initState]⟩, trivial⟩
  have hb := (hg.steps he (initState_ok nv) hs).1.body
  rw [h2] at hb
  have hc : ctxOf [st.cur] = [] := by simp [ctxOf, h1, headKind]
  rw [hc] at hb
  obtain ⟨as, h3, h4⟩ := stmts_good hb
  refine ⟨⟨Export.pos fn (posOf (mkEnv lines) (mkEnv lines).buf), as⟩, ?_, ⟨?_, ?_, ?_⟩⟩
  · simp [Export.file, h3]
  · exact ⟨List.suffix_refl _, rfl⟩
  · exact fun s hs => (h4 s hs).1
  · exact fun s hs => (h4 s hs).2

theorem parseFileLines_good (nv : Bool) (fn : Str) (lines : List Str) :
    (∃ f, parseFileLines nv fn lines = some ⟨some f, none⟩ ∧ OkFile lines fn f) ∨
    (∃ msg q, parseFileLines nv fn lines = some ⟨none, some (.parse fn q.i q.lnum q.col msg)⟩ ∧
      PosOK (mkEnv lines) q) ∨
    (parseFileLines nv fn lines = some ⟨none, some .other⟩ ∧ BigNumber (mkEnv lines)) := by
  have he := mkEnv_ok lines
  have h := parseToplevel_spec (nv := nv) he (good_closed (fn := fn) he)
  unfold wp at h
  unfold parseFileLines
  cases hr : (parseToplevel nv).run (mkEnv lines) (mkEnv lines).buf with
  | ok f r' =>
    obtain ⟨a, h1, h2⟩ := toplevel_export (fn := fn) hr
    exact Or.inl ⟨a, by simp only [hr, h1], h2⟩
  | fail e =>
    rw [show (parseToplevel nv).runWith tokGet (mkEnv lines) (mkEnv lines).buf = _ from hr] at h
    right
    cases e with
    | err msg q => exact Or.inl ⟨msg, q, by simp [hr, recoverFail], h⟩
    | num => exact Or.inr ⟨by simp [hr, recoverFail], h⟩
    | _ => exact h.elim

theorem parseFileLines_all {nv : Bool} {fn : Str} {lines : List Str} {f : Ast.File} {er : Option ApiErr}
    (h : parseFileLines nv fn lines = some ⟨some f, er⟩) : er = none ∧ OkFile lines fn f := by
  rcases parseFileLines_good nv fn lines with ⟨a, h1, h2⟩ | ⟨msg, q, h1, _⟩ | ⟨h1, _⟩
  · rw [h1] at h; cases h; exact ⟨rfl, h2⟩
  · rw [h1] at h; cases h
  · rw [h1] at h; cases h

/-! ### Positions -/

section
variable {env : Env} {fn : Str}

theorem Spec.HHead.real {r r' : List Cell} {fs : List (Pos × Str)} {op : Str} (h : HHead env r fs op r')
    (hs : Suf env r) : Suf env r' ∧ ∀ x ∈ fs, ∃ r0, Suf env r0 ∧ x.1 = posOf env r0 := by
  induction h with
  | marker h1 _ h2 => exact ⟨(hs.adv h1.adv).adv h2.adv, by simp⟩
  | flag h1 _ h2 _ _ _ _ ih =>
    have hs1 := hs.adv h1.adv
    obtain ⟨k1, k2⟩ := ih (hs1.adv h2.adv)
    refine ⟨k1, ?_⟩
    rw [List.forall_mem_cons]
    exact ⟨⟨_, hs1, rfl⟩, k2⟩

theorem Spec.TrailAt.suf {r r' : List Cell} (h : TrailAt r r') (hs : Suf env r) : Suf env r' := by
  cases h with
  | eof => exact hs
  | eol h1 => exact (List.tail_suffix _).trans (hs.adv h1.adv)
  | comment h1 => exact (List.tail_suffix _).trans (hs.adv h1.adv)
  | bar h1 => exact (List.tail_suffix _).trans (hs.adv h1.adv)

theorem Spec.HLines.real {m : Str} {r r' : List Cell} {ls : List (Pos × Str)} (h : HLines env m r ls r')
    (hs : Suf env r) : ∀ x ∈ ls, ∃ r0, Suf env r0 ∧ x.1 = posOf env r0 := by
  induction h with
  | done => simp
  | cons h1 _ _ _ ih =>
    rw [List.forall_mem_cons]
    refine ⟨⟨_, hs, rfl⟩, ih ?_⟩
    have := hs.adv h1.adv
    exact (List.suffix_cons _ _).trans this

theorem Spec.HereAt.real {r r' : List Cell} {fl b : List (Pos × Str)} {m : Str} (h : HereAt env r fl m b r')
    (hs : Suf env r) : ∀ x ∈ fl ++ b, ∃ r0, Suf env r0 ∧ x.1 = posOf env r0 := by
  obtain ⟨r1, r2, r3, h1, h2, h3, h4⟩ := h
  obtain ⟨k1, k2⟩ := h2.real (hs.adv h1.adv)
  intro x hx
  rcases List.mem_append.mp hx with hx | hx
  · exact k2 x hx
  · exact h4.real (h3.suf k1) x hx

theorem Spec.ArgIn.suf {ea : Ast.ExArg} {r : List Cell} (h : ArgIn env fn ea r) : Suf env r := by
  obtain ⟨ra, v, ⟨q, _, h1, _⟩, h2⟩ := h
  exact Suf.adv h1 h2.adv

/-- Positions in the expressions of a statement. -/
theorem OkS.exprPos {ctx : List Kind} {s : Ast.Stmt} (h : OkS env fn ctx s) {e : Ast.Expr} (hm : e ∈ exprsOf s) :
    AllE (fun e => ∀ q ∈ ownPos e, Real env fn q) (fun _ => False) e := by
  by_cases hh : isHeredoc e = false
  · refine Spec.AllE.noKeys ?_ ((h.exprs e hm hh).2.imp (Q := fun e => ∀ q ∈ ownPos e, Real env fn q) fun e he => he.pos)
    intro e he
    refine litKey_leaf (fun q v hq => ?_) he
    simpa [ownPos] using hq
  · cases s
    case let_ q ea op l ls rest r =>
      have ht := h.text
      by_cases hr : isHeredoc r = true
      · simp only [textOK, hr, if_true] at ht
        obtain ⟨_, _, ht⟩ := ht
        have : e = r := by
          by_cases hin : e ∈ l.toList ++ ls ++ rest.toList
          · exfalso
            have ht' := h.targets.1
            have : target e := by
              rcases ht' with ⟨x, rfl, rfl, rfl, h1⟩ | ⟨rfl, _, h1, h2⟩
              · simp at hin; rw [hin]; exact h1
              · simp only [Option.toList_none, List.nil_append, List.mem_append, Option.mem_toList] at hin
                exact hin.elim (h1 e) (h2 e)
            cases e <;> simp_all [isHeredoc, target]
          · simp only [exprsOf, List.mem_append, List.mem_singleton] at hm hin
            exact hm.resolve_left hin
        subst this
        cases e <;> simp [isHeredoc] at hr
        rename_i q' fl m b
        obtain ⟨rfl, r, r', fl', b', k1, k2, rfl, rfl⟩ := ht
        have hreal := k2.real k1.suf
        refine .mk _ ?_ ?_ (by simp [keys])
        · simp only [ownPos, List.mem_singleton, forall_eq]
          exact LineAt.real (h.start _ rfl).2 _ (by simp [exArgPos])
        · intro x hx
          simp only [subs, strNodes, ← List.map_append, List.mem_map] at hx
          obtain ⟨y, hy, rfl⟩ := hx
          obtain ⟨r0, hs0, h0⟩ := hreal y hy
          refine .mk _ ?_ (by simp [subs]) (by simp [keys])
          simp only [ownPos, List.mem_singleton, forall_eq]
          exact ⟨r0, hs0, by rw [h0]⟩
      · exfalso
        have hin : e ∈ l.toList ++ ls ++ rest.toList := by
          simp only [exprsOf, List.mem_append, List.mem_singleton] at hm ⊢
          rcases hm with hm | rfl
          · exact hm
          · exact absurd hh (by simpa using hr)
        have : target e := by
          rcases h.targets.1 with ⟨x, rfl, rfl, rfl, h1⟩ | ⟨rfl, _, h1, h2⟩
          · simp at hin; rw [hin]; exact h1
          · simp only [Option.toList_none, List.nil_append, List.mem_append, Option.mem_toList] at hin
            exact hin.elim (h1 e) (h2 e)
        cases e <;> simp_all [isHeredoc, target]
    case lockVar => exact absurd (h.text.2 e hm) hh
    case unLockVar => exact absurd (h.text.2 e hm) hh
    all_goals first
      | exact absurd (h.text e hm) hh
      | (simp [exprsOf] at hm; done)

/-- Positions of a statement itself. -/
theorem OkS.ownPos {ctx : List Kind} {s : Ast.Stmt} (h : OkS env fn ctx s) :
    ∀ q ∈ stmtOwnPos s, Real env fn q := by
  intro q hq
  simp only [stmtOwnPos, List.mem_cons, List.mem_append, List.mem_flatMap, Option.mem_toList, List.mem_map] at hq
  rcases hq with rfl | (⟨ea, h1, h2⟩ | ⟨e, h1, h2⟩) | ⟨i, h1, rfl⟩
  · cases hx : exArgOf s with
    | some ea =>
      obtain ⟨h1, h2⟩ := h.start ea hx
      exact h1 ▸ LineAt.real h2 _ (by simp [exArgPos])
    | none =>
      cases s <;> simp [exArgOf] at hx
      obtain ⟨r, _, h1, _⟩ := h.text
      exact ⟨r, h1⟩
  · exact LineAt.real (h.start ea h1).2 q h2
  · obtain ⟨k1, k2⟩ := h.end_ e h1
    rcases h2 with rfl | h2
    · exact k1 ▸ LineAt.real k2 _ (by simp [exArgPos])
    · exact LineAt.real k2 q h2
  · cases s <;> simp [paramsOf] at h1
    obtain ⟨_, ⟨a, b, d, rfl, _, _, ha, hb, hd, _⟩, _⟩ := h.sig
    have : ∀ {cs}, ParamAt env fn i cs → Real env fn i.pos := fun ⟨r, _, _, _, _, h, _⟩ => ⟨r, h⟩
    rw [List.mem_append, List.mem_append] at h1
    rcases h1 with (h1 | h1) | h1
    · exact this (ha i h1)
    · exact this (hb i h1)
    · exact this (hd i h1)

end

/-! ### Big numbers -/

theorem infix_line {L : List Str} {X Y : List (Option Char)} {d : Str} (hd : d ≠ [])
    (h : X ++ d.map some ++ Y = L.flatMap fun l => l.map some ++ [none]) :
    ∃ l ∈ L, d <:+: l := by
  induction L generalizing X with
  | nil => simp at h; exact absurd h.2.1 hd
  | cons l L ih =>
    rw [List.flatMap_cons, List.append_assoc, List.append_assoc] at h
    by_cases hx : l.length < X.length
    · -- the text starts after the first line
      rw [List.append_eq_append_iff] at h
      rcases h with ⟨a, h1, h2⟩ | ⟨c, h1, h2⟩
      · rw [show l.length = (l.map some).length by simp, h1] at hx
        simp at hx
        omega
      · cases c with
        | nil => simp at h1; rw [h1] at hx; simp at hx
        | cons x c =>
          simp only [List.cons_append, List.nil_append, List.cons.injEq] at h2
          obtain ⟨l', k1, k2⟩ := ih (X := c) (by rw [List.append_assoc]; exact h2.2.symm)
          exact ⟨l', List.mem_cons_of_mem _ k1, k2⟩
    · refine ⟨l, List.mem_cons_self .., ?_⟩
      have key : ∀ (X : List (Option Char)) (l d : Str) (Y Z : List (Option Char)),
          X.length ≤ l.length → X ++ (d.map some ++ Y) = l.map some ++ none :: Z → d <:+: l := by
        intro X
        induction X with
        | nil =>
          intro l d Y Z _ h
          suffices d <+: l from this.isInfix
          induction d generalizing l with
          | nil => simp
          | cons c d ih =>
            cases l with
            | nil => simp at h
            | cons e l =>
              simp only [List.nil_append, List.map_cons, List.cons_append, List.cons.injEq, Option.some.injEq] at h ih
              rw [h.1, List.cons_prefix_cons]
              exact ⟨rfl, ih l (by simp) h.2⟩
        | cons x X ihX =>
          intro l d Y Z hlen h
          cases l with
          | nil => simp at hlen
          | cons e l =>
            simp only [List.map_cons, List.cons_append, List.cons.injEq] at h
            exact List.infix_cons (ihX l d Y Z (by simpa using hlen) h.2)
      exact key X l d Y _ (by omega) (by simpa using h)

theorem BigNumber.line {lines : List Str} (h : BigNumber (mkEnv lines)) :
    ∃ l ∈ logicalLines lines, ∃ d, d <:+: l ∧ (∀ c ∈ d, isdigit c = true) ∧ 2147483648 ≤ decVal d := by
  obtain ⟨r, d, r', ⟨pre, h1⟩, ⟨p, h2, h3⟩, h4, h5⟩ := h
  have hl := Props.C01_logical_lines lines
  rw [← h1, h2, ← List.append_assoc, List.map_append, List.map_append, h3] at hl
  obtain ⟨l, k1, k2⟩ := infix_line (by rintro rfl; exact absurd h5 (by decide)) hl
  exact ⟨l, k1, d, k2, h4.2, h5⟩

end Viml
