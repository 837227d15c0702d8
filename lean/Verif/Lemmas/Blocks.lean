/-
The grammar of block commands as a pushdown automaton.
-/
import Verif.Spec.Blocks

namespace Viml
open Spec

/-- One command with the stack of open blocks; the last part of a block stands for the block. -/
def bstep : List Blk → Blk → Option (List Blk)
  | s, .function => some (.function :: s)
  | s, .if_ => some (.if_ :: s)
  | s, .while_ => some (.while_ :: s)
  | s, .for_ => some (.for_ :: s)
  | s, .try_ => some (.try_ :: s)
  | .function :: s, .endfunction => some s
  | .while_ :: s, .endwhile => some s
  | .for_ :: s, .endfor => some s
  | .if_ :: s, .elseif => some (.elseif :: s)
  | .if_ :: s, .else_ => some (.else_ :: s)
  | .if_ :: s, .endif => some s
  | .elseif :: s, .elseif => some (.elseif :: s)
  | .elseif :: s, .else_ => some (.else_ :: s)
  | .elseif :: s, .endif => some s
  | .else_ :: s, .endif => some s
  | .try_ :: s, .catch_ => some (.catch_ :: s)
  | .try_ :: s, .finally_ => some (.finally_ :: s)
  | .try_ :: s, .endtry => some s
  | .catch_ :: s, .catch_ => some (.catch_ :: s)
  | .catch_ :: s, .finally_ => some (.finally_ :: s)
  | .catch_ :: s, .endtry => some s
  | .finally_ :: s, .endtry => some s
  | _, _ => none

def brun : List Blk → List Blk → Option (List Blk)
  | s, [] => some s
  | s, b :: bs => (bstep s b).bind fun s' => brun s' bs

theorem brun_append {s a b : List Blk} : brun s (a ++ b) = (brun s a).bind fun s' => brun s' b := by
  induction a generalizing s with
  | nil => rfl
  | cons x a ih =>
    simp only [List.cons_append, brun]
    cases bstep s x with
    | none => rfl
    | some s' => exact ih

mutual
theorem blocks_run {bs : List Blk} : Blocks bs → ∀ s, brun s bs = some s
  | .nil => fun _ => rfl
  | .function h1 h2 => fun s => by
    have i1 := blocks_run h1
    have i2 := blocks_run h2
    simp only [List.cons_append, brun, bstep, Option.bind_some, brun_append, i1, i2]
  | .while_ h1 h2 => fun s => by
    have i1 := blocks_run h1
    have i2 := blocks_run h2
    simp only [List.cons_append, brun, bstep, Option.bind_some, brun_append, i1, i2]
  | .for_ h1 h2 => fun s => by
    have i1 := blocks_run h1
    have i2 := blocks_run h2
    simp only [List.cons_append, brun, bstep, Option.bind_some, brun_append, i1, i2]
  | .if_ h1 h2 h3 => fun s => by
    have i1 := blocks_run h1
    have i2 := ifTail_run h2
    have i3 := blocks_run h3
    simp only [List.cons_append, brun, bstep, Option.bind_some, brun_append, i1, (i2 s).1, i3]
  | .try_ h1 h2 h3 => fun s => by
    have i1 := blocks_run h1
    have i2 := tryTail_run h2
    have i3 := blocks_run h3
    simp only [List.cons_append, brun, bstep, Option.bind_some, brun_append, i1, (i2 s).1, i3]
theorem ifTail_run {t : List Blk} : IfTail t → ∀ s,
    brun (.if_ :: s) t = some s ∧ brun (.elseif :: s) t = some s
  | .endif => fun _ => ⟨rfl, rfl⟩
  | .else_ h1 => fun s => by
    have i1 := blocks_run h1
    constructor <;> simp only [List.cons_append, brun, bstep, Option.bind_some, brun_append, i1]
  | .elseif h1 h2 => fun s => by
    have i1 := blocks_run h1
    have i2 := ifTail_run h2
    constructor <;> simp only [List.cons_append, brun, bstep, Option.bind_some, brun_append, i1, (i2 s).2]
theorem tryTail_run {t : List Blk} : TryTail t → ∀ s,
    brun (.try_ :: s) t = some s ∧ brun (.catch_ :: s) t = some s
  | .endtry => fun _ => ⟨rfl, rfl⟩
  | .finally_ h1 => fun s => by
    have i1 := blocks_run h1
    constructor <;> simp only [List.cons_append, brun, bstep, Option.bind_some, brun_append, i1]
  | .catch_ h1 h2 => fun s => by
    have i1 := blocks_run h1
    have i2 := tryTail_run h2
    constructor <;> simp only [List.cons_append, brun, bstep, Option.bind_some, brun_append, i1, (i2 s).2]
end

theorem Spec.Blocks.append {a b : List Blk} (ha : Blocks a) (hb : Blocks b) : Blocks (a ++ b) := by
  refine Blocks.rec (motive_1 := fun a _ => Blocks (a ++ b)) (motive_2 := fun _ _ => True)
    (motive_3 := fun _ _ => True) hb ?_ ?_ ?_ ?_ ?_ trivial (fun _ _ => trivial) (fun _ _ _ _ => trivial)
    trivial (fun _ _ => trivial) (fun _ _ _ _ => trivial) ha
  · intro _ _ h1 _ _ h2
    simpa using Blocks.function h1 h2
  · intro _ _ h1 _ _ h2
    simpa using Blocks.while_ h1 h2
  · intro _ _ h1 _ _ h2
    simpa using Blocks.for_ h1 h2
  · intro _ _ _ h1 h2 _ _ _ h3
    simpa using Blocks.if_ h1 h2 h3
  · intro _ _ _ h1 h2 _ _ _ h3
    simpa using Blocks.try_ h1 h2 h3

/-- The stack after a sequence that runs: every open block is followed by complete blocks. -/
def Opened : List Blk → List Blk → Prop
  | [], bs => Blocks bs
  | h :: s, bs => ∃ pre mid body, bs = pre ++ mid ++ h :: body ∧ Opened s pre ∧ Blocks body ∧
      match h with
      | .function | .if_ | .while_ | .for_ | .try_ => mid = []
      | .elseif | .else_ => ∀ t, IfTail (h :: t) → Blocks (mid ++ h :: t)
      | .catch_ | .finally_ => ∀ t, TryTail (h :: t) → Blocks (mid ++ h :: t)
      | _ => False

theorem Opened.append {s a b : List Blk} (h : Opened s a) (hb : Blocks b) : Opened s (a ++ b) := by
  cases s with
  | nil => exact Blocks.append h hb
  | cons x s =>
    obtain ⟨pre, mid, body, rfl, h1, h2, h3⟩ := h
    exact ⟨pre, mid, body ++ b, by simp, h1, h2.append hb, h3⟩

theorem Opened.push {s a : List Blk} {h : Blk} (ha : Opened s a) (hh : h ∈ [.function, .if_, .while_, .for_, .try_]) :
    Opened (h :: s) (a ++ [h]) := by
  refine ⟨a, [], [], by simp, ha, .nil, ?_⟩
  simp only [List.mem_cons, List.mem_nil_iff, or_false] at hh
  rcases hh with rfl | rfl | rfl | rfl | rfl <;> rfl

theorem Opened.step {s s' bs : List Blk} {b : Blk} (h : Opened s bs) (hb : bstep s b = some s') :
    Opened s' (bs ++ [b]) := by
  unfold bstep at hb
  split at hb <;> try (cases hb; done)
  all_goals (try (cases hb; exact h.push (by simp)))
  all_goals
    cases hb
    obtain ⟨pre, mid, body, rfl, h1, h2, h3⟩ := h
    simp only at h3
  case h_6 =>
    subst h3
    have := h1.append (Blocks.function h2 .nil)
    simpa using this
  case h_7 =>
    subst h3
    have := h1.append (Blocks.while_ h2 .nil)
    simpa using this
  case h_8 =>
    subst h3
    have := h1.append (Blocks.for_ h2 .nil)
    simpa using this
  case h_9 =>
    subst h3
    refine ⟨pre, .if_ :: body, [], by simp, h1, .nil, fun t ht => ?_⟩
    simpa using Blocks.if_ h2 ht .nil
  case h_10 =>
    subst h3
    refine ⟨pre, .if_ :: body, [], by simp, h1, .nil, fun t ht => ?_⟩
    simpa using Blocks.if_ h2 ht .nil
  case h_11 =>
    subst h3
    have := h1.append (Blocks.if_ h2 .endif .nil)
    simpa using this
  case h_12 =>
    refine ⟨pre, mid ++ .elseif :: body, [], by simp, h1, .nil, fun t ht => ?_⟩
    simpa using h3 _ (.elseif h2 ht)
  case h_13 =>
    refine ⟨pre, mid ++ .elseif :: body, [], by simp, h1, .nil, fun t ht => ?_⟩
    simpa using h3 _ (.elseif h2 ht)
  case h_14 =>
    have := h1.append (h3 _ (.elseif h2 .endif))
    simpa using this
  case h_15 =>
    have := h1.append (h3 _ (.else_ h2))
    simpa using this
  case h_16 =>
    subst h3
    refine ⟨pre, .try_ :: body, [], by simp, h1, .nil, fun t ht => ?_⟩
    simpa using Blocks.try_ h2 ht .nil
  case h_17 =>
    subst h3
    refine ⟨pre, .try_ :: body, [], by simp, h1, .nil, fun t ht => ?_⟩
    simpa using Blocks.try_ h2 ht .nil
  case h_18 =>
    subst h3
    have := h1.append (Blocks.try_ h2 .endtry .nil)
    simpa using this
  case h_19 =>
    refine ⟨pre, mid ++ .catch_ :: body, [], by simp, h1, .nil, fun t ht => ?_⟩
    simpa using h3 _ (.catch_ h2 ht)
  case h_20 =>
    refine ⟨pre, mid ++ .catch_ :: body, [], by simp, h1, .nil, fun t ht => ?_⟩
    simpa using h3 _ (.catch_ h2 ht)
  case h_21 =>
    have := h1.append (h3 _ (.catch_ h2 .endtry))
    simpa using this
  case h_22 =>
    have := h1.append (h3 _ (.finally_ h2))
    simpa using this

theorem Opened.run {s s' a b : List Blk} (h : Opened s a) (hb : brun s b = some s') : Opened s' (a ++ b) := by
  induction b generalizing s a with
  | nil => cases hb; simpa using h
  | cons x b ih =>
    simp only [brun, Option.bind_eq_some_iff] at hb
    obtain ⟨s1, h1, h2⟩ := hb
    have := ih (h.step h1) h2
    simpa using this

theorem opened_of {bs s : List Blk} (h : brun [] bs = some s) : Opened s bs := by
  have := Opened.run (s := []) (a := []) Blocks.nil h
  simpa using this

theorem blocks_iff {bs : List Blk} : Blocks bs ↔ brun [] bs = some [] :=
  ⟨fun h => blocks_run h [], fun h => opened_of h⟩

/-- Any stack can be closed. -/
theorem opened_close {s bs : List Blk} (h : Opened s bs) : ∃ rest, brun s rest = some [] := by
  induction s generalizing bs with
  | nil => exact ⟨[], rfl⟩
  | cons x s ih =>
    obtain ⟨pre, mid, body, rfl, h1, h2, h3⟩ := h
    obtain ⟨rest, hr⟩ := ih h1
    cases x <;> simp only at h3
    case function => exact ⟨.endfunction :: rest, hr⟩
    case if_ => exact ⟨.endif :: rest, hr⟩
    case elseif => exact ⟨.endif :: rest, hr⟩
    case else_ => exact ⟨.endif :: rest, hr⟩
    case while_ => exact ⟨.endwhile :: rest, hr⟩
    case for_ => exact ⟨.endfor :: rest, hr⟩
    case try_ => exact ⟨.endtry :: rest, hr⟩
    case catch_ => exact ⟨.endtry :: rest, hr⟩
    case finally_ => exact ⟨.endtry :: rest, hr⟩

theorem viable_iff {bs : List Blk} : Viable bs ↔ ∃ s, brun [] bs = some s := by
  constructor
  · rintro ⟨rest, h⟩
    have := blocks_iff.1 h
    rw [brun_append] at this
    cases hb : brun [] bs with
    | none => rw [hb] at this; cases this
    | some s => exact ⟨s, rfl⟩
  · rintro ⟨s, h⟩
    obtain ⟨rest, hr⟩ := opened_close (opened_of h)
    refine ⟨rest, blocks_iff.2 ?_⟩
    rw [brun_append, h]
    exact hr

theorem brun_snoc {s s' bs : List Blk} {b : Blk} (h : brun s bs = some s') : brun s (bs ++ [b]) = bstep s' b := by
  rw [brun_append, h]
  simp only [Option.bind_some, brun]
  cases bstep s' b <;> rfl

/-- Commands that open a block or a part of one leave it on top. -/
theorem bstep_top {s s' : List Blk} {h : Blk} (hb : bstep s h = some s')
    (hh : h ∉ [.endfunction, .endif, .endwhile, .endfor, .endtry]) : ∃ t, s' = h :: t := by
  unfold bstep at hb
  split at hb <;> cases hb <;> first | exact ⟨_, rfl⟩ | exact absurd (by simp) hh

theorem innermost_iff {bs s : List Blk} (h : brun [] bs = some s) (x : Blk) :
    Innermost bs x ↔ s.head? = some x := by
  constructor
  · rintro ⟨pre, body, rfl, h1, h2⟩
    rw [brun_append] at h
    cases hp : brun [] pre with
    | none => rw [hp] at h; cases h
    | some s1 =>
      rw [hp] at h
      simp only [Option.bind_some, brun, Option.bind_eq_some_iff] at h
      obtain ⟨s2, h3, h4⟩ := h
      rw [blocks_run h1] at h4
      cases h4
      obtain ⟨t, rfl⟩ := bstep_top h3 h2
      rfl
  · intro hs
    cases s with
    | nil => cases hs
    | cons y s =>
      cases hs
      obtain ⟨pre, mid, body, rfl, h1, h2, h3⟩ := opened_of h
      refine ⟨pre ++ mid, body, rfl, h2, ?_⟩
      cases x <;> simp at h3 ⊢

end Viml
