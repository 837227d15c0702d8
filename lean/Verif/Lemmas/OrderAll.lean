/-
The lists of positions of `Spec/Order.lean` are complete, and places in the source are ordered as their positions.
-/
import Verif.Lemmas.OrderFile
import Verif.Props.Input

namespace Viml
open Spec

/-! ### From places to positions -/

theorem here_lt (lines : List Str) (fn : Str) {x y : List Cell} (hx : x <:+ (mkEnv lines).buf) (h : y <:+ x.tail)
    (h0 : x ≠ []) : PosLt (here (mkEnv lines) fn x) (here (mkEnv lines) fn y) := by
  cases x with
  | nil => exact absurd rfl h0
  | cons c x =>
    have hc : c ∈ (mkEnv lines).buf := hx.subset (by simp)
    cases y with
    | nil => exact Props.C04_before_eof lines c hc
    | cons d y =>
      have hp := (Props.C04_strictly_increasing lines).sublist hx.sublist
      exact (List.pairwise_cons.1 hp).1 d (h.subset (by simp))

theorem here_le (lines : List Str) (fn : Str) {x y : List Cell} (hx : x <:+ (mkEnv lines).buf) (h : y <:+ x) :
    PosLe (here (mkEnv lines) fn x) (here (mkEnv lines) fn y) := by
  cases x with
  | nil => rw [List.suffix_nil.1 h]; exact .inr ⟨rfl, Nat.le_refl _⟩
  | cons c x =>
    rcases List.suffix_cons_iff.1 h with rfl | h
    · exact .inr ⟨rfl, Nat.le_refl _⟩
    · rcases here_lt lines fn hx h (by simp) with h | h
      · exact .inl h
      · exact .inr ⟨h.1, Nat.le_of_lt h.2⟩

theorem track_mem {env : Env} {fn : Str} {s : Bool} {r l r'} (h : Track env fn s r l r') :
    ∀ q ∈ l, ∃ y, y <:+ r ∧ q = here env fn y := by
  induction h with
  | nil => intro q hq; cases hq
  | cons h1 _ _ ih =>
    intro q hq
    rcases List.mem_cons.1 hq with rfl | hq
    · exact ⟨_, h1, rfl⟩
    · obtain ⟨y, h4, h5⟩ := ih q hq
      exact ⟨y, (h4.trans (step_suffix _)).trans h1, h5⟩

theorem track_le {lines : List Str} {fn : Str} {r l r'} (h : Track (mkEnv lines) fn false r l r')
    (hr : r <:+ (mkEnv lines).buf) : l.Pairwise PosLe := by
  induction h with
  | nil => exact .nil
  | cons h1 _ h3 ih =>
    refine List.pairwise_cons.2 ⟨?_, ih (h1.trans hr)⟩
    intro q hq
    obtain ⟨y, h4, rfl⟩ := track_mem h3 q hq
    exact here_le lines fn (h1.trans hr) h4

theorem track_lt {lines : List Str} {fn : Str} {r l r'} (h : Track (mkEnv lines) fn true r l r')
    (hr : r <:+ (mkEnv lines).buf) : l.Pairwise PosLt := by
  induction h with
  | nil => exact .nil
  | cons h1 h2 h3 ih =>
    refine List.pairwise_cons.2 ⟨?_, ih (((List.tail_suffix _).trans h1).trans hr)⟩
    intro q hq
    obtain ⟨y, h4, rfl⟩ := track_mem h3 q hq
    exact here_lt lines fn (h1.trans hr) h4 (h2 rfl)

/-! ### All positions are listed -/

theorem placesL_mem {all : Bool} {es : List Ast.Expr} {q : Ast.Pos} : q ∈ placesL all es ↔ ∃ e ∈ es, q ∈ places all e := by
  induction es with
  | nil => simp [placesL]
  | cons e es ih => simp [placesL, ih]

theorem placesL_sublist {all : Bool} {e : Ast.Expr} {es : List Ast.Expr} (h : e ∈ es) :
    (places all e).Sublist (placesL all es) := by
  induction es with
  | nil => cases h
  | cons x es ih =>
    rw [placesL]
    rcases List.mem_cons.1 h with rfl | h
    · exact List.sublist_append_left _ _
    · exact (ih h).trans (List.sublist_append_right _ _)

theorem placesP_sublist {all : Bool} {p : Ast.Expr × Ast.Expr} {kvs : List (Ast.Expr × Ast.Expr)} (h : p ∈ kvs) :
    (places all p.1 ++ places all p.2).Sublist (placesP all kvs) := by
  induction kvs with
  | nil => cases h
  | cons x kvs ih =>
    obtain ⟨k, v⟩ := x
    rw [placesP]
    rcases List.mem_cons.1 h with rfl | h
    · exact List.sublist_append_left _ _
    · exact (ih h).trans (List.sublist_append_right _ _)

theorem sub_sublist {e x : Ast.Expr} (h : x ∈ subs e ++ keys e) (all : Bool) : (places all x).Sublist (places all e) := by
  have L : ∀ {a b : List Ast.Pos}, a.Sublist (a ++ b) := List.sublist_append_left _ _
  have R : ∀ {a b : List Ast.Pos}, b.Sublist (a ++ b) := List.sublist_append_right _ _
  cases e with
  | ternary =>
    rw [places]
    simp [subs, keys] at h
    rcases h with rfl | rfl | rfl
    · exact (L.trans L).trans L
    · exact R.trans L
    · exact R
  | binary =>
    rw [places]
    simp [subs, keys] at h
    rcases h with rfl | rfl
    · exact L.trans L
    · exact R
  | subscript =>
    rw [places]
    simp [subs, keys] at h
    rcases h with rfl | rfl
    · exact L.trans L
    · exact R
  | slice x' q lo hi =>
    rw [places]
    simp only [subs, keys, List.append_nil, List.mem_cons, List.mem_append, Option.mem_toList] at h
    rcases h with rfl | h | h
    · exact (L.trans L).trans L
    · cases lo <;> cases h
      exact R.trans L
    · cases hi <;> cases h
      exact R
  | dict p kvs =>
    simp only [subs, keys, List.mem_append, List.mem_map] at h
    rw [places]
    rcases h with ⟨y, h1, rfl⟩ | ⟨y, h1, rfl⟩
    · exact (R.trans (placesP_sublist h1)).trans R
    · exact (L.trans (placesP_sublist h1)).trans R
  | method l f _ as =>
    simp only [subs, keys, List.append_nil, List.mem_cons] at h
    rw [places]
    rcases h with rfl | rfl | h
    · exact (L.trans L).trans L
    · exact (R.trans L).trans L
    · exact (placesL_sublist h).trans R
  | call f _ as =>
    simp only [subs, keys, List.append_nil, List.mem_cons] at h
    rw [places]
    rcases h with rfl | h
    · exact L.trans L
    · exact (placesL_sublist h).trans R
  | dot =>
    simp [subs, keys] at h
    subst h
    rw [places]
    exact L
  | list _ vs =>
    simp only [subs, keys, List.append_nil] at h
    rw [places]
    exact (placesL_sublist h).trans R
  | curlyName _ vs =>
    simp only [subs, keys, List.append_nil] at h
    rw [places]
    exact (placesL_sublist h).trans R
  | heredoc _ fs _ b =>
    simp only [subs, keys, List.append_nil, List.mem_append] at h
    rw [places]
    rcases h with h | h
    · exact (placesL_sublist h).trans L
    · exact (placesL_sublist h).trans R
  | basicLit => simp [subs, keys] at h
  | curlyNameLit => simp [subs, keys] at h
  | ident => simp [subs, keys] at h
  | _ =>
    simp [subs, keys] at h
    subst h
    rw [places]
    exact R

theorem places_sublist {e x : Ast.Expr} (h : Part e x) {all : Bool} : (places all x).Sublist (places all e) := by
  induction h with
  | refl => exact List.Sublist.refl _
  | sub h _ ih => exact ih.trans (sub_sublist h all)

theorem places_all {e x : Ast.Expr} (h : Part e x) (hx : isHeredoc x = false) : ∀ q ∈ ownPos x, q ∈ places true e := by
  induction h with
  | refl =>
    rename_i e
    intro q hq
    cases e <;> simp_all [ownPos, places, isHeredoc]
    grind
  | sub h1 _ ih => exact fun q hq => (sub_sublist h1 true).subset (ih hx q hq)

theorem paramPlaces_mem (is : List Ast.Ident) : ∀ ds : List Ast.Expr,
    (∀ i ∈ is, i.pos ∈ paramPlaces is ds) ∧ ∀ d ∈ ds, ∀ q ∈ places true d, q ∈ paramPlaces is ds := by
  induction is with
  | nil =>
    intro ds
    refine ⟨by simp, fun d hd q hq => ?_⟩
    rw [paramPlaces]
    exact placesL_mem.2 ⟨d, hd, hq⟩
  | cons i is ih =>
    intro ds
    rw [paramPlaces.eq_def]
    dsimp only
    split
    · cases ds with
      | nil =>
        refine ⟨fun j hj => ?_, fun _ h => nomatch h⟩
        rcases List.mem_cons.1 hj with rfl | hj
        · simp
        · exact List.mem_cons_of_mem _ ((ih []).1 j hj)
      | cons d ds =>
        refine ⟨fun j hj => ?_, fun e he q hq => ?_⟩
        · rcases List.mem_cons.1 hj with rfl | hj
          · simp
          · exact List.mem_cons_of_mem _ (List.mem_append_right _ ((ih ds).1 j hj))
        · rcases List.mem_cons.1 he with rfl | he
          · exact List.mem_cons_of_mem _ (List.mem_append_left _ hq)
          · exact List.mem_cons_of_mem _ (List.mem_append_right _ ((ih ds).2 e he q hq))
    · refine ⟨fun j hj => ?_, fun e he q hq => ?_⟩
      · rcases List.mem_cons.1 hj with rfl | hj
        · simp
        · exact List.mem_cons_of_mem _ ((ih ds).1 j hj)
      · exact List.mem_cons_of_mem _ ((ih ds).2 e he q hq)

theorem Spec.Listed.mono {l l' : List Ast.Pos} {s : Ast.Stmt} (h : Listed l s) (hl : ∀ q ∈ l, q ∈ l') : Listed l' s :=
  ⟨fun q hq => hl q (h.1 q hq), fun e he q hq => hl q (h.2 e he q hq)⟩

theorem head_listed (s : Ast.Stmt) : Listed (headPlaces s ++ (endOf s).toList.flatMap fun e => cmdPlaces e.pos e.ea) s := by
  cases s with
  | function q ea b n is ds at_ e =>
    refine ⟨?_, ?_⟩
    · intro q' hq
      simp only [stmtOwnPos, stmtPos, exArgOf, endOf, paramsOf, Option.toList_some, List.flatMap_cons, List.flatMap_nil,
        List.append_nil, List.mem_cons, List.mem_append, exArgPos, List.mem_map] at hq
      simp only [headPlaces, endOf, cmdPlaces, Option.toList_some, List.flatMap_cons, List.flatMap_nil,
        List.append_nil, List.mem_cons, List.mem_append]
      have := (paramPlaces_mem is ds).1
      grind
    · intro x hx q' hq
      simp only [exprsOf, List.mem_cons] at hx
      have := (paramPlaces_mem is ds).2
      simp only [headPlaces, List.mem_append]
      grind
  | _ =>
    refine ⟨?_, ?_⟩
    · simp [stmtOwnPos, headPlaces, stmtPos, exArgOf, endOf, paramsOf, cmdPlaces, exArgPos]
      try grind
    · intro x hx q' hq
      simp only [headPlaces, List.mem_append]
      first
      | exact .inl (.inr (placesL_mem.2 ⟨x, hx, hq⟩))
      | cases hx

theorem partS_cons {s ss x} (hx : PartS (s :: ss) x) : (x = s ∨ PartS (subStmts s) x) ∨ PartS ss x := by
  cases hx with
  | mem h =>
    rcases List.mem_cons.1 h with rfl | h
    · exact .inl (.inl rfl)
    · exact .inr (.mem h)
  | sub h h' =>
    rcases List.mem_cons.1 h with rfl | h
    · exact .inl (.inr h')
    · exact .inr (.sub h h')

theorem partS_nil {x} : ¬ PartS [] x := by
  intro hx
  cases hx with
  | mem h => cases h
  | sub h => cases h

mutual

theorem written_mem {s l x} : Written s l → x = s ∨ PartS (subStmts s) x → Listed l x
  | .mk h, hx => by
    rcases hx with rfl | hx
    · refine (head_listed x).mono ?_
      intro q hq
      simp only [List.mem_append] at hq ⊢
      grind
    · refine (writtenL_mem h hx).mono ?_
      intro q hq
      simp [hq]

theorem writtenL_mem {ss l x} : WrittenL ss l → PartS ss x → Listed l x
  | .nil, hx => absurd hx partS_nil
  | .cons h1 h2, hx => by
    rcases partS_cons hx with h | h
    · exact (written_mem h1 h).mono fun q hq => List.mem_append_left _ hq
    · exact (writtenL_mem h2 h).mono fun q hq => List.mem_append_right _ hq
  | .heredoc h2, hx => by
    rcases partS_cons hx with (rfl | h) | h
    · exact ⟨by simp [stmtOwnPos, stmtPos, exArgOf, endOf, paramsOf], fun _ h => nomatch h⟩
    · exact absurd h partS_nil
    · rcases partS_cons h with (rfl | h) | h
      · refine (head_listed _).mono ?_
        intro q hq
        simp only [headPlaces, exArgOf, stmtPos, exprsOf, endOf, placesL_append, placesL, places, List.mem_append] at hq ⊢
        simp at hq
        grind
      · exact absurd h partS_nil
      · exact (writtenL_mem h2 h).mono fun q hq => List.mem_append_right _ hq

end

end Viml
