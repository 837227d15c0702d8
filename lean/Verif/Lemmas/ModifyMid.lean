/-
A modifier is put before a command of a file (`Modify.lean`).
-/
import Verif.Lemmas.Modify

namespace Viml
open Spec

theorem Spec.Modded.eq {p q : Ast.Pos} {m : Modifier} {w : Str} {i j : Nat} {s s' : Ast.Stmt} (h : Modded p q m w i s s')
    (e : i = j) : Modded p q m w j s s' := e ▸ h

/-- A modifier is put at the rest `q0` of a file; `κ` carries the text before it, `μ` moves the text behind. -/
structure Modifies (nv : Bool) (lines : List Str) (env' : Env) (fn : Str) extends Fore lines env' fn where
  μ : Mover (mkEnv lines) env' fn
  m : κ.m = μ.κ.m
  mo : Modifier
  w : Str
  sub : Modif mo w κ.q (μ.tr κ.q0)
  cx : Ctx
  b : Option Inner
  used : List Str
  front : Front nv (mkEnv lines) fn cx b used κ.q0

namespace Modifies
open Fore
variable {nv : Bool} {lines : List Str} {env' : Env} {fn : Str} {ι : Modifies nv lines env' fn}
  {cx : Ctx} {b : Option Inner} {used used' used1 usedX : List Str} {r r' r1 r2 s s' : List Cell} {i j : Nat}

local notation "E" => mkEnv lines
local notation "L" => Ast.Stmt.onPosL ι.κ.m

/-- Where the line of the command starts, without and with the modifier. -/
def p (ι : Modifies nv lines env' fn) : Ast.Pos := Spec.here env' fn (ι.μ.tr ι.κ.q0)
def q (ι : Modifies nv lines env' fn) : Ast.Pos := Spec.here env' fn ι.κ.q

/-- The statements `ss`, but for `i` records. -/
def As (ι : Modifies nv lines env' fn) (i : Nat) (ss ss' : List Ast.Stmt) : Prop :=
  ModdedL ι.p ι.q ι.mo ι.w i (Ast.Stmt.onPosL ι.κ.m ss) ss'

def As1 (ι : Modifies nv lines env' fn) (i : Nat) (x x' : Ast.Stmt) : Prop :=
  Modded ι.p ι.q ι.mo ι.w i (x.onPos ι.κ.m) x'

def AsR (ι : Modifies nv lines env' fn) (i : Nat) (ea ea' : Ast.ExArg) : Prop :=
  RecMod ι.p ι.q ι.mo i (ea.onPos ι.κ.m) ea'

theorem As.one {i : Nat} {x x' : Ast.Stmt} (h : As1 ι i x x') : As ι i [x] [x'] := ModdedL.one h

theorem As.refl (ι : Modifies nv lines env' fn) (ss : List Ast.Stmt) : As ι 0 ss (Ast.Stmt.onPosL ι.κ.m ss) := ModdedL.refl ..

theorem As.append {i j : Nat} {a a' b b' : List Ast.Stmt} (h1 : As ι i a a') (h2 : As ι j b b') :
    As ι (i + j) (a ++ b) (a' ++ b') := by
  unfold As
  rw [onPosS_append]
  exact ModdedL.append h1 h2

theorem As.before {i : Nat} {a b b' : List Ast.Stmt} (h : As ι i b b') : As ι i (a ++ b) (L a ++ b') := by
  have := (As.refl ι a).append h
  rwa [Nat.zero_add] at this

/-- Where a place that is not before the inserted text goes to, and whether it is behind the command. -/
inductive After (ι : Modifies nv lines env' fn) : Nat → List Cell → List Cell → Prop
  | here : After ι 0 ι.κ.q0 ι.κ.q
  | behind (r : List Cell) : r <:+ ι.κ.q0 → r ≠ ι.κ.q0 → After ι 1 r (ι.μ.tr r)

theorem After.suf (h : After ι i r s) : r <:+ ι.κ.q0 := by
  cases h with
  | here => exact List.suffix_rfl
  | behind _ h _ => exact h

theorem After.of (h : r <:+ ι.κ.q0) : ∃ i s, After ι i r s := by
  by_cases e : r = ι.κ.q0
  · exact e ▸ ⟨_, _, .here⟩
  · exact ⟨_, _, .behind _ h e⟩

/-- Behind a line that is not before the place. -/
theorem After.lt (h : After ι i r s) (hs : r' <:+ r) (hl : r'.length < r.length ∨ r' = []) : After ι 1 r' (ι.μ.tr r') := by
  refine .behind _ (hs.trans h.suf) fun e => ?_
  rcases hl with hl | hl
  · have := h.suf.length_le
    rw [← e] at this
    omega
  · exact ι.ne (e.symm.trans hl)

theorem behind {ss} (a : After ι i r s) (h : Body nv E fn cx used r ss used' r') (hu : Carry.Adds [] used usedX) :
    ∃ usedX' s' ss' j, Carry.Adds [] used' usedX' ∧ After ι (i + j) r' s' ∧ As ι j ss ss' ∧
      Body nv env' fn cx usedX s ss' usedX' s' := by
  have h1 := Carry.body (κ := ι.μ.κ) no_names h (ι.μ.all _).to (ι.μ.all _).up (fun _ _ _ h => by cases h) hu
  rw [← ι.m] at h1
  obtain ⟨usedX', hu', h1⟩ := h1
  have hs := (body_order h).suffix
  rcases Indented.body_lt h with ⟨rfl, rfl, rfl⟩ | hl
  · exact ⟨usedX, s, _, 0, hu, a, .refl .., .nil⟩
  · have p := a.lt hs hl
    cases a with
    | behind _ a1 a2 => exact ⟨usedX', _, _, 0, hu', p, .refl .., h1⟩
    | here =>
      rcases ι.sub.body h1 with ⟨_, _, e3⟩ | ⟨ss', hr, h2⟩
      · change ι.μ.tr r' = ι.μ.tr ι.κ.q0 at e3
        rw [Mover.map, Mover.map] at e3
        have := congrArg List.length e3
        simp only [List.length_map] at this
        rcases hl with hl | hl
        · omega
        · subst hl
          exact absurd (List.eq_nil_of_length_eq_zero this.symm) ι.ne
      · exact ⟨usedX', _, _, 1, hu', p, hr, h2⟩

theorem opens_behind {α : Type} {n : Str} {A A' : List Cell → α → List Cell → Prop} {g : α → α}
    {ea a cm} (hl : Low n) (hA : Carry.Argument ι.μ.κ A A' g) (hs : ∀ {r a r'}, A r a r' → r' <:+ r) (p : After ι i r s)
    (h : Spec.Opens nv E fn n A used r ea a cm used' r') (hu : Carry.Adds [] used usedX) :
    ∃ usedX' ea' j, Carry.Adds [] used' usedX' ∧ i + j = 1 ∧ AsR ι j ea ea' ∧ ea'.cmdpos = (ea.onPos ι.κ.m).cmdpos ∧
      After ι 1 r' (ι.μ.tr r') ∧ Spec.Opens nv env' fn n A' usedX s ea' (g a) (L cm) usedX' (ι.μ.tr r') := by
  have h1 := (Carry.opens (κ := ι.μ.κ) no_names hl hA (ι.μ.all _) h hu).2
  rw [← ι.m] at h1
  obtain ⟨usedX', hu', h1⟩ := h1
  have p1 : After ι 1 r' (ι.μ.tr r') := by
    refine p.lt (opens_suf hs h) ?_
    obtain ⟨r0, c, ra, r1, r2, _, h1, h2, h3⟩ := h
    obtain ⟨a1, a2, a3⟩ := head_track h1
    exact (Carry.trail_len h3).imp
      (fun h => Nat.lt_of_lt_of_le h (((hs h2).trans a2.suffix).trans a3.suffix).length_le) id
  cases p with
  | behind _ a1 a2 => exact ⟨usedX', _, 0, hu', rfl, .same _, rfl, p1, h1⟩
  | here =>
    obtain ⟨e, h2⟩ := ι.sub.opens h1
    exact ⟨usedX', _, 1, hu', rfl, .mod e, rfl, p1, h2⟩

theorem closes_behind {n : Str} {e : Ast.EndCmd} (hl : Low n) (p : After ι i r s)
    (h : Closes nv E fn n used r e used' r') (hu : Carry.Adds [] used usedX) :
    ∃ usedX' ea' j, Carry.Adds [] used' usedX' ∧ i + j = 1 ∧ AsR ι j e.ea ea' ∧
      Closes nv env' fn n usedX s ⟨(e.onPos ι.κ.m).pos, ea'⟩ usedX' (ι.μ.tr r') := by
  have h1 := Carry.closes (κ := ι.μ.κ) no_names hl (ι.μ.all _) h hu
  rw [← ι.m] at h1
  obtain ⟨usedX', hu', h1⟩ := h1
  cases p with
  | behind _ a1 a2 => exact ⟨usedX', _, 0, hu', rfl, .same _, h1⟩
  | here =>
    obtain ⟨e, h2⟩ := ι.sub.closes h1
    exact ⟨usedX', _, 1, hu', rfl, .mod e, h2⟩

theorem trail_behind {cm} (h : Trail E fn r cm r') : Trail env' fn (ι.μ.tr r) (L cm) (ι.μ.tr r') := by
  have := (Carry.trail (κ := ι.μ.κ) (ι.μ.all _) h).2
  rwa [← ι.m] at this

theorem closes_in {n : Str} {e : Ast.EndCmd} (i : ι.κ.In r) (h : Closes nv E fn n used r e used' r') : ι.κ.In r' := by
  obtain ⟨r0, ea, c, ra, r1, rfl, h1, rfl, h3⟩ := h
  obtain ⟨i0, ia, i1, _⟩ := Carry.cmdHead (U := []) i (Carry.adds_nil used) (Carry.free_nil c) h1
  split at h3
  · obtain ⟨l, h3⟩ := h3
    exact (Carry.rest i1 h3).1
  · rw [h3]; exact i1

/-- The end of a block is behind the place only if the command that ends it is. -/
theorem closes_suf' {n : Str} {e : Ast.EndCmd} (t : ι.κ.To r) (hs : r1 <:+ r) (h : Closes nv E fn n used r1 e used' r')
    (h' : r' <:+ ι.κ.q0) : r1 <:+ ι.κ.q0 :=
  (suf t hs).resolve_left fun i => not_in (closes_in i h) h'

/-! ### Statements on both sides -/

/-- What is shown about statements from `r` to `r'`. -/
def Mid (ι : Modifies nv lines env' fn) (cx : Ctx) (used : List Str) (r : List Cell) (ss : List Ast.Stmt) (used' : List Str)
    (r' : List Cell) : Prop :=
  ∀ usedX, Carry.Adds [] used usedX → ∃ usedX' s ss' i, Carry.Adds [] used' usedX' ∧ After ι i r' s ∧ As ι i ss ss' ∧
    Body nv env' fn cx usedX (ι.κ.tr r) ss' usedX' s

theorem mid_end {ss} (h : Body nv E fn cx used r ss used' ι.κ.q0) (t : ι.κ.To r) : Mid ι cx used r ss used' ι.κ.q0 := by
  intro usedX hu
  obtain ⟨usedX', hu', h1⟩ := before h t (.inr rfl) hu
  rw [Carry.tr_end] at h1
  exact ⟨usedX', _, _, 0, hu', .here, .refl .., h1⟩

theorem mid_start {ss} (h : Body nv E fn cx used ι.κ.q0 ss used' r') : Mid ι cx used ι.κ.q0 ss used' r' := by
  intro usedX hu
  rw [Carry.tr_end]
  obtain ⟨usedX', s', ss', j, hu', p, hr, h1⟩ := behind .here h hu
  exact ⟨usedX', s', ss', _, hu', p, by rwa [Nat.zero_add], h1⟩

theorem mid_to {ss} (t : ι.κ.To r) (h : Body nv E fn cx used r ss used' r') (ih : ι.κ.In r → Mid ι cx used r ss used' r') :
    Mid ι cx used r ss used' r' := by
  rcases t with i | rfl
  · exact ih i
  · exact mid_start h

/-- Statements on both sides, and one more that does not reach behind the place if it starts before it. -/
theorem mid_line {ss ss1 xs} (h : Body nv E fn cx used r ss1 used1 r1) (i : ι.κ.In r) (hs : r' <:+ ι.κ.q0)
    (h1 : Body nv E fn cx used1 r1 xs used' r') (e : ss = ss1 ++ xs) (ih : r1 <:+ ι.κ.q0 → Mid ι cx used r ss1 used1 r1)
    (ht : ι.κ.In r1 → ι.κ.To r') : Mid ι cx used r ss used' r' := by
  subst e
  rcases suf i.to (body_order h).suffix with i1 | hs1
  · obtain rfl := at_end (ht i1) hs
    exact mid_end (Body.append h h1) i.to
  · intro usedX hu
    obtain ⟨usedX1, s1, _, i, hu1, p1, hr1, h2⟩ := ih hs1 usedX hu
    obtain ⟨usedX', s', _, j, hu', p', hr', h4⟩ := behind p1 h1 hu1
    exact ⟨usedX', s', _, i + j, hu', p', hr1.append hr', Body.append h2 h4⟩

mutual

theorem body_mid {cx b used r ss used' r'} : Body nv E fn cx used r ss used' r' → Front nv E fn cx b used r → ι.κ.In r →
    r' <:+ ι.κ.q0 → Mid ι cx used r ss used' r'
  | .nil, _, i, hs => (not_in i hs).elim
  | .shebang h h1 h2 h3, hf, i, hs =>
    mid_line h i hs (.shebang .nil h1 h2 h3) (by simp) (body_mid h hf i) fun i1 => (Carry.reads i1 h2).1.tail
  | .empty h h2 h3, hf, i, hs =>
    mid_line h i hs (.empty .nil h2 h3) (by simp) (body_mid h hf i) fun i1 => (Carry.skipC i1 h2).1.tail
  | .comment h h2 h3, hf, i, hs =>
    mid_line h i hs (.comment .nil h2 h3) (by simp) (body_mid h hf i) fun i1 =>
      (Carry.comment (Carry.skipC i1 h2).1 h3).1
  | .noCommand h h1 h2 h3 h4, hf, i, hs =>
    mid_line h i hs (.noCommand .nil h1 h2 h3 h4) (by simp) (body_mid h hf i) fun i1 =>
      (Carry.trail (Carry.before i1 h1).2.1 h4).1
  | .simple h h1 h2 h3, hf, i, hs =>
    mid_line h i hs (.simple .nil h1 h2 h3) (by simp) (body_mid h hf i) fun i1 =>
      i1.to.cut ((trail_order h3).suffix.trans (simple_order h1 h2).suffix)
        (front_simple (.lines hf h) h1 h2 h3 ι.front (lt i1))
  | .block (r1 := r1) (r2 := r2) h h1 h2, hf, i, hs => by
    have s1 := (body_order h).suffix
    by_cases hc : ι.κ.In r1 ∧ r2 <:+ ι.κ.q0
    · intro usedX hu
      obtain ⟨usedX1, hu1, a1⟩ := before h i.to hc.1.to hu
      obtain ⟨usedX2, s2, hu2, hr2, a2⟩ := block_mid h1 (.lines hf h) hc.1 hc.2 usedX1 hu1
      obtain ⟨_, _, p⟩ := After.of hc.2
      exact ⟨usedX2, _, _, 1, hu2, p.lt (trail_order h2).suffix (Carry.trail_len h2),
        (As.before (.one hr2)).append (.refl ι _), .block a1 a2 (trail_behind h2)⟩
    · refine mid_line h i hs (.block .nil h1 h2) (by simp) (body_mid h hf i) fun i1 => ?_
      rcases suf i1.to (block_order h1).suffix with i2 | hs2
      · exact (Carry.trail i2 h2).1
      · exact absurd ⟨i1, hs2⟩ hc

theorem block_mid {cx b used r s used' r'} : Block nv E fn cx used r s used' r' → Front nv E fn cx b used r → ι.κ.In r →
    r' <:+ ι.κ.q0 → ∀ usedX, Carry.Adds [] used usedX → ∃ usedX' s', Carry.Adds [] used' usedX' ∧ As1 ι 1 s s' ∧
      Block nv env' fn cx usedX (ι.κ.tr r) s' usedX' (ι.μ.tr r')
  | .function h1 h2 h3, hf, i, hs, usedX, hu => by
    obtain ⟨t1, usedX1, hu1, a1⟩ := Carry.opens no_names (by low) Carry.argFunc i h1 hu
    have s2 := closes_suf' t1 (body_order h2).suffix h3 hs
    obtain ⟨usedX2, s2, _, i2, hu2, p2, hr2, a2⟩ := mid_to t1 h2 (fun i1 => body_mid h2 (.function hf h1) i1 s2) usedX1 hu1
    obtain ⟨usedX3, _, j, hu3, hj, hr3, a4⟩ := closes_behind (by low) p2 h3 hu2
    refine ⟨usedX3, _, hu3, ?_, .function a1 a2 a4⟩
    rw [As1, Ast.Stmt.onPos]
    exact (Modded.function (.same _) hr2.before hr3).eq (by omega)
  | .while_ h1 h2 h3, hf, i, hs, usedX, hu => by
    obtain ⟨t1, usedX1, hu1, a1⟩ := Carry.opens no_names (by low) Carry.argGram i h1 hu
    have s2 := closes_suf' t1 (body_order h2).suffix h3 hs
    obtain ⟨usedX2, s2, _, i2, hu2, p2, hr2, a2⟩ := mid_to t1 h2 (fun i1 => body_mid h2 (.while_ hf h1) i1 s2) usedX1 hu1
    obtain ⟨usedX3, _, j, hu3, hj, hr3, a4⟩ := closes_behind (by low) p2 h3 hu2
    refine ⟨usedX3, _, hu3, ?_, .while_ a1 a2 a4⟩
    rw [As1, Ast.Stmt.onPos]
    exact (Modded.while_ (.same _) hr2.before hr3).eq (by omega)
  | .for_ h1 h2 h3, hf, i, hs, usedX, hu => by
    obtain ⟨t1, usedX1, hu1, a1⟩ := Carry.opens no_names (by low) Carry.argFor i h1 hu
    have s2 := closes_suf' t1 (body_order h2).suffix h3 hs
    obtain ⟨usedX2, s2, _, i2, hu2, p2, hr2, a2⟩ := mid_to t1 h2 (fun i1 => body_mid h2 (.for_ hf h1) i1 s2) usedX1 hu1
    obtain ⟨usedX3, _, j, hu3, hj, hr3, a4⟩ := closes_behind (by low) p2 h3 hu2
    refine ⟨usedX3, _, hu3, ?_, .for_ a1 a2 a4⟩
    rw [As1, Ast.Stmt.onPos]
    exact (Modded.for_ (.same _) hr2.before hr3).eq (by omega)
  | .if_ h1 h2, hf, i, hs, usedX, hu => by
    have s1 := closes_suf' i.to (ifPart_suf h1) h2 hs
    obtain ⟨usedX1, s1, _, _, i1, i2, hu1, p1, hr1, hr2, a1⟩ := ifPart_mid h1 hf i s1 usedX hu
    obtain ⟨usedX3, _, j, hu3, hj, hr3, a4⟩ := closes_behind (by low) p1 h2 hu1
    refine ⟨usedX3, _, hu3, ?_, .if_ a1 a4⟩
    rw [As1, Ast.Stmt.onPos]
    exact (Modded.if_ (.same _) hr1 hr2 .nil hr3).eq (by omega)
  | .ifElse (r1 := r1) h1 h2 h3 h4, hf, i, hs, usedX, hu => by
    have s2 := opens_suf (fun h => by cases h; exact List.suffix_refl _) h2
    have s3 := closes_suf' i.to (((body_order h3).suffix.trans s2).trans (ifPart_suf h1)) h4 hs
    rcases suf i.to (ifPart_suf h1) with i1 | s1
    · obtain ⟨usedX1, hu1, a1⟩ := Carry.ifPart no_names h1 i i1 (fun _ _ _ h => by cases h) hu
      obtain ⟨t2, usedX2, hu2, a2⟩ := Carry.opens no_names (by low) Carry.argNone i1 h2 hu1
      obtain ⟨b', hb, hf1⟩ := Renamed.front_ifPart h1 hf
      obtain ⟨usedX3, s4, _, k, hu3, p3, hr3, a3⟩ := mid_to t2 h3 (fun i2 => body_mid h3 (.else_ hf1 hb h2) i2 s3) usedX2 hu2
      obtain ⟨usedX4, _, j, hu4, hj, hr4, a5⟩ := closes_behind (by low) p3 h4 hu3
      refine ⟨usedX4, _, hu4, ?_, .ifElse a1 a2 a3 a5⟩
      rw [As1, Ast.Stmt.onPos, Ast.Stmt.onPosO, Ast.Stmt.onPos]
      exact (Modded.if_ (.same _) (.refl ..) (.refl ..) (.one (.else_ (.same _) hr3.before)) hr4).eq (by omega)
    · obtain ⟨usedX1, s4, _, _, i1, i2, hu1, p1, hr1, hr2, a1⟩ := ifPart_mid h1 hf i s1 usedX hu
      obtain ⟨usedX2, _, o, hu2, ho, hro, hc, p2, a3⟩ := opens_behind (by low) Carry.argNone leaves_none p1 h2 hu1
      obtain ⟨usedX3, s5, _, k, hu3, p3, hr3, a4⟩ := behind p2 h3 hu2
      obtain ⟨usedX4, _, j, hu4, hj, hr4, a5⟩ := closes_behind (by low) p3 h4 hu3
      refine ⟨usedX4, _, hu4, ?_, .ifElse a1 a3 a4 a5⟩
      rw [As1, Ast.Stmt.onPos, Ast.Stmt.onPosO, Ast.Stmt.onPos, hc]
      exact (Modded.if_ (.same _) hr1 hr2 (.one (.else_ hro hr3.before)) hr4).eq (by omega)
  | .try_ h1 h2, hf, i, hs, usedX, hu => by
    have s1 := closes_suf' i.to (tryPart_suf h1) h2 hs
    obtain ⟨usedX1, s1, _, _, i1, i2, hu1, p1, hr1, hr2, a1⟩ := tryPart_mid h1 hf i s1 usedX hu
    obtain ⟨usedX3, _, j, hu3, hj, hr3, a4⟩ := closes_behind (by low) p1 h2 hu1
    refine ⟨usedX3, _, hu3, ?_, .try_ a1 a4⟩
    rw [As1, Ast.Stmt.onPos]
    exact (Modded.try_ (.same _) hr1 hr2 .nil hr3).eq (by omega)
  | .tryFinally (r1 := r1) h1 h2 h3 h4, hf, i, hs, usedX, hu => by
    have s2 := opens_suf (fun h => by cases h; exact List.suffix_refl _) h2
    have s3 := closes_suf' i.to (((body_order h3).suffix.trans s2).trans (tryPart_suf h1)) h4 hs
    rcases suf i.to (tryPart_suf h1) with i1 | s1
    · obtain ⟨usedX1, hu1, a1⟩ := Carry.tryPart no_names h1 i i1 (fun _ _ _ h => by cases h) hu
      obtain ⟨t2, usedX2, hu2, a2⟩ := Carry.opens no_names (by low) Carry.argNone i1 h2 hu1
      obtain ⟨b', hb, hf1⟩ := Renamed.front_tryPart h1 hf
      obtain ⟨usedX3, s4, _, k, hu3, p3, hr3, a3⟩ :=
        mid_to t2 h3 (fun i2 => body_mid h3 (.finally_ hf1 hb h2) i2 s3) usedX2 hu2
      obtain ⟨usedX4, _, j, hu4, hj, hr4, a5⟩ := closes_behind (by low) p3 h4 hu3
      refine ⟨usedX4, _, hu4, ?_, .tryFinally a1 a2 a3 a5⟩
      rw [As1, Ast.Stmt.onPos, Ast.Stmt.onPosO, Ast.Stmt.onPos]
      exact (Modded.try_ (.same _) (.refl ..) (.refl ..) (.one (.finally_ (.same _) hr3.before)) hr4).eq (by omega)
    · obtain ⟨usedX1, s4, _, _, i1, i2, hu1, p1, hr1, hr2, a1⟩ := tryPart_mid h1 hf i s1 usedX hu
      obtain ⟨usedX2, _, o, hu2, ho, hro, hc, p2, a3⟩ := opens_behind (by low) Carry.argNone leaves_none p1 h2 hu1
      obtain ⟨usedX3, s5, _, k, hu3, p3, hr3, a4⟩ := behind p2 h3 hu2
      obtain ⟨usedX4, _, j, hu4, hj, hr4, a5⟩ := closes_behind (by low) p3 h4 hu3
      refine ⟨usedX4, _, hu4, ?_, .tryFinally a1 a3 a4 a5⟩
      rw [As1, Ast.Stmt.onPos, Ast.Stmt.onPosO, Ast.Stmt.onPos, hc]
      exact (Modded.try_ (.same _) hr1 hr2 (.one (.finally_ hro hr3.before)) hr4).eq (by omega)

theorem ifPart_mid {cx b used r ea ss y eis used' r'} : IfPart nv E fn cx used r ea ss y eis used' r' →
    Front nv E fn cx b used r → ι.κ.In r → r' <:+ ι.κ.q0 → ∀ usedX, Carry.Adds [] used usedX →
    ∃ usedX' s' ss' eis' i j, Carry.Adds [] used' usedX' ∧ After ι (i + j) r' s' ∧ As ι i ss ss' ∧ As ι j eis eis' ∧
      IfPart nv env' fn cx usedX (ι.κ.tr r) (ea.onPos ι.κ.m) ss' (y.onPos ι.κ.m) eis' usedX' s'
  | .if_ h1 h2, hf, i, hs, usedX, hu => by
    obtain ⟨t1, usedX1, hu1, a1⟩ := Carry.opens no_names (by low) Carry.argGram i h1 hu
    obtain ⟨usedX2, s2, _, k, hu2, p2, hr2, a2⟩ := mid_to t1 h2 (fun i1 => body_mid h2 (.if_ hf h1) i1 hs) usedX1 hu1
    exact ⟨usedX2, s2, _, _, k, 0, hu2, p2, hr2.before, .nil, .if_ a1 a2⟩
  | .elseif h1 h2 h3, hf, i, hs, usedX, hu => by
    rcases suf i.to (ifPart_suf h1) with i1 | s1
    · obtain ⟨usedX1, hu1, a1⟩ := Carry.ifPart no_names h1 i i1 (fun _ _ _ h => by cases h) hu
      obtain ⟨t2, usedX2, hu2, a2⟩ := Carry.opens no_names (by low) Carry.argGram i1 h2 hu1
      obtain ⟨b', hb, hf1⟩ := Renamed.front_ifPart h1 hf
      obtain ⟨usedX3, s3, _, k, hu3, p3, hr3, a3⟩ := mid_to t2 h3 (fun i2 => body_mid h3 (.elseif hf1 hb h2) i2 hs) usedX2 hu2
      refine ⟨usedX3, s3, _, _, 0, k, hu3, by rwa [Nat.zero_add], .refl .., As.before (.one ?_), .elseif a1 a2 a3⟩
      rw [As1, Ast.Stmt.onPos]
      exact (Modded.elseIf (.same _) hr3.before).eq (by omega)
    · obtain ⟨usedX1, s4, _, _, i1, i2, hu1, p1, hr1, hr2, a1⟩ := ifPart_mid h1 hf i s1 usedX hu
      obtain ⟨usedX2, _, o, hu2, ho, hro, hc, p2, a3⟩ := opens_behind (by low) Carry.argGram leaves_gram p1 h2 hu1
      obtain ⟨usedX3, s5, _, k, hu3, p3, hr3, a4⟩ := behind p2 h3 hu2
      refine ⟨usedX3, s5, _, _, i1, i2 + (o + k), hu3, ?_, hr1, hr2.append (.one ?_),
        .elseif a1 (by rw [← ι.m] at a3; exact a3) a4⟩
      · rw [show i1 + (i2 + (o + k)) = 1 + k by omega]
        exact p3
      · rw [As1, Ast.Stmt.onPos, hc]
        exact .elseIf hro hr3.before

theorem tryPart_mid {cx b used r ea ss cs used' r'} : TryPart nv E fn cx used r ea ss cs used' r' →
    Front nv E fn cx b used r → ι.κ.In r → r' <:+ ι.κ.q0 → ∀ usedX, Carry.Adds [] used usedX →
    ∃ usedX' s' ss' cs' i j, Carry.Adds [] used' usedX' ∧ After ι (i + j) r' s' ∧ As ι i ss ss' ∧ As ι j cs cs' ∧
      TryPart nv env' fn cx usedX (ι.κ.tr r) (ea.onPos ι.κ.m) ss' cs' usedX' s'
  | .try_ h1 h2, hf, i, hs, usedX, hu => by
    obtain ⟨t1, usedX1, hu1, a1⟩ := Carry.opens no_names (by low) Carry.argNone i h1 hu
    obtain ⟨usedX2, s2, _, k, hu2, p2, hr2, a2⟩ := mid_to t1 h2 (fun i1 => body_mid h2 (.try_ hf h1) i1 hs) usedX1 hu1
    exact ⟨usedX2, s2, _, _, k, 0, hu2, p2, hr2.before, .nil, .try_ a1 a2⟩
  | .catch_ h1 h2 h3, hf, i, hs, usedX, hu => by
    rcases suf i.to (tryPart_suf h1) with i1 | s1
    · obtain ⟨usedX1, hu1, a1⟩ := Carry.tryPart no_names h1 i i1 (fun _ _ _ h => by cases h) hu
      obtain ⟨t2, usedX2, hu2, a2⟩ := Carry.opens no_names (by low) Carry.argCatch i1 h2 hu1
      obtain ⟨b', hb, hf1⟩ := Renamed.front_tryPart h1 hf
      obtain ⟨usedX3, s3, _, k, hu3, p3, hr3, a3⟩ := mid_to t2 h3 (fun i2 => body_mid h3 (.catch_ hf1 hb h2) i2 hs) usedX2 hu2
      refine ⟨usedX3, s3, _, _, 0, k, hu3, by rwa [Nat.zero_add], .refl .., As.before (.one ?_), .catch_ a1 a2 a3⟩
      rw [As1, Ast.Stmt.onPos]
      exact (Modded.catch_ (.same _) hr3.before).eq (by omega)
    · obtain ⟨usedX1, s4, _, _, i1, i2, hu1, p1, hr1, hr2, a1⟩ := tryPart_mid h1 hf i s1 usedX hu
      obtain ⟨usedX2, _, o, hu2, ho, hro, hc, p2, a3⟩ := opens_behind (by low) Carry.argCatch leaves_catch p1 h2 hu1
      obtain ⟨usedX3, s5, _, k, hu3, p3, hr3, a4⟩ := behind p2 h3 hu2
      refine ⟨usedX3, s5, _, _, i1, i2 + (o + k), hu3, ?_, hr1, hr2.append (.one ?_), .catch_ a1 a3 a4⟩
      · rw [show i1 + (i2 + (o + k)) = 1 + k by omega]
        exact p3
      · rw [As1, Ast.Stmt.onPos, hc]
        exact .catch_ hro hr3.before

end

/-! ### Correct lines -/

theorem front_here (h : Front nv E fn cx b used ι.κ.q0) : ∃ usedX, Front nv env' fn cx b usedX ι.κ.q := by
  obtain ⟨x, h1⟩ := front_before h (.inr rfl)
  rw [Carry.tr_end] at h1
  exact ⟨x, h1⟩

theorem front_behind_of (h : Front nv E fn cx b used r) (hs : r <:+ ι.κ.q0)
    (ih : r <:+ ι.κ.q0 → r ≠ ι.κ.q0 → ∃ usedX, Front nv env' fn cx b usedX (ι.μ.tr r)) :
    ∃ usedX s i, After ι i r s ∧ Front nv env' fn cx b usedX s := by
  by_cases hq : r = ι.κ.q0
  · subst hq
    obtain ⟨x, h⟩ := front_here h
    exact ⟨x, _, _, .here, h⟩
  · obtain ⟨x, h⟩ := ih hs hq
    exact ⟨x, _, _, .behind _ hs hq, h⟩

theorem After.eq (h : After ι i r s) (hq : r ≠ ι.κ.q0) : s = ι.μ.tr r := by
  cases h with
  | here => exact absurd rfl hq
  | behind => rfl

theorem After.count (h : After ι i r s) (hq : r ≠ ι.κ.q0) : i = 1 := by
  cases h with
  | here => exact absurd rfl hq
  | behind => rfl

theorem opens_after {α : Type} {n : Str} {A A' : List Cell → α → List Cell → Prop} {g : α → α} {ea a cm}
    (hl : lowB n = true) (hA : Carry.Argument ι.μ.κ A A' g) (p : After ι i r s) (h : Spec.Opens nv E fn n A used r ea a cm used' r') (x : List Str) :
    ∃ ea a cm, Spec.Opens nv env' fn n A' x s ea a cm x (ι.μ.tr r') := by
  have h1 := opens_mv ι.μ hl hA h x
  cases p with
  | behind _ a1 a2 => exact ⟨_, _, _, h1⟩
  | here => exact ⟨_, _, _, (ι.sub.opens h1).2⟩

theorem front_behind' (h : Front nv E fn cx b used r) : r <:+ ι.κ.q0 → r ≠ ι.κ.q0 →
    ∃ usedX, Front nv env' fn cx b usedX (ι.μ.tr r) := by
  induction h with
  | start => exact fun hs hq => absurd (at_end ι.start hs) hq
  | lines h0 h1 ih =>
    intro hs hq
    rcases suf ι.start (front_suffix h0) with i | s
    · obtain ⟨x, h2⟩ := front_before h0 i.to
      obtain ⟨_, s', _, _, _, p', _, h3⟩ := body_mid h1 h0 i hs _ (Carry.adds_nil _)
      obtain ⟨_, y, h3⟩ := body_any h3 x
      exact ⟨y, p'.eq hq ▸ .lines h2 h3⟩
    · obtain ⟨x, s1, _, p1, ih⟩ := front_behind_of h0 s ih
      obtain ⟨_, s', _, _, _, p', _, h3⟩ := behind p1 h1 (Carry.adds_nil _)
      obtain ⟨_, y, h3⟩ := body_any h3 x
      exact ⟨y, p'.eq hq ▸ .lines ih h3⟩
  | function h0 h1 ih =>
    intro hs hq
    rcases suf ι.start (front_suffix h0) with i | s
    · exact absurd (at_end (Carry.opens no_names (by low) Carry.argFunc i h1 (Carry.adds_nil _)).1 hs) hq
    · obtain ⟨x, s1, _, p1, ih⟩ := front_behind_of h0 s ih
      obtain ⟨_, _, _, h2⟩ := opens_after (by decide) Carry.argFunc p1 h1 x
      exact ⟨x, .function ih h2⟩
  | while_ h0 h1 ih =>
    intro hs hq
    rcases suf ι.start (front_suffix h0) with i | s
    · exact absurd (at_end (Carry.opens no_names (by low) Carry.argGram i h1 (Carry.adds_nil _)).1 hs) hq
    · obtain ⟨x, s1, _, p1, ih⟩ := front_behind_of h0 s ih
      obtain ⟨_, _, _, h2⟩ := opens_after (by decide) Carry.argGram p1 h1 x
      exact ⟨x, .while_ ih h2⟩
  | for_ h0 h1 ih =>
    intro hs hq
    rcases suf ι.start (front_suffix h0) with i | s
    · exact absurd (at_end (Carry.opens no_names (by low) Carry.argFor i h1 (Carry.adds_nil _)).1 hs) hq
    · obtain ⟨x, s1, _, p1, ih⟩ := front_behind_of h0 s ih
      obtain ⟨_, _, _, h2⟩ := opens_after (by decide) Carry.argFor p1 h1 x
      exact ⟨x, .for_ ih h2⟩
  | if_ h0 h1 ih =>
    intro hs hq
    rcases suf ι.start (front_suffix h0) with i | s
    · exact absurd (at_end (Carry.opens no_names (by low) Carry.argGram i h1 (Carry.adds_nil _)).1 hs) hq
    · obtain ⟨x, s1, _, p1, ih⟩ := front_behind_of h0 s ih
      obtain ⟨_, _, _, h2⟩ := opens_after (by decide) Carry.argGram p1 h1 x
      exact ⟨x, .if_ ih h2⟩
  | try_ h0 h1 ih =>
    intro hs hq
    rcases suf ι.start (front_suffix h0) with i | s
    · exact absurd (at_end (Carry.opens no_names (by low) Carry.argNone i h1 (Carry.adds_nil _)).1 hs) hq
    · obtain ⟨x, s1, _, p1, ih⟩ := front_behind_of h0 s ih
      obtain ⟨_, _, _, h2⟩ := opens_after (by decide) Carry.argNone p1 h1 x
      exact ⟨x, .try_ ih h2⟩
  | elseif h0 hb h1 ih =>
    intro hs hq
    rcases suf ι.start (front_suffix h0) with i | s
    · exact absurd (at_end (Carry.opens no_names (by low) Carry.argGram i h1 (Carry.adds_nil _)).1 hs) hq
    · obtain ⟨x, s1, _, p1, ih⟩ := front_behind_of h0 s ih
      obtain ⟨_, _, _, h2⟩ := opens_after (by decide) Carry.argGram p1 h1 x
      exact ⟨x, .elseif ih hb h2⟩
  | else_ h0 hb h1 ih =>
    intro hs hq
    rcases suf ι.start (front_suffix h0) with i | s
    · exact absurd (at_end (Carry.opens no_names (by low) Carry.argNone i h1 (Carry.adds_nil _)).1 hs) hq
    · obtain ⟨x, s1, _, p1, ih⟩ := front_behind_of h0 s ih
      obtain ⟨_, _, _, h2⟩ := opens_after (by decide) Carry.argNone p1 h1 x
      exact ⟨x, .else_ ih hb h2⟩
  | catch_ h0 hb h1 ih =>
    intro hs hq
    rcases suf ι.start (front_suffix h0) with i | s
    · exact absurd (at_end (Carry.opens no_names (by low) Carry.argCatch i h1 (Carry.adds_nil _)).1 hs) hq
    · obtain ⟨x, s1, _, p1, ih⟩ := front_behind_of h0 s ih
      obtain ⟨_, _, _, h2⟩ := opens_after (by decide) Carry.argCatch p1 h1 x
      exact ⟨x, .catch_ ih hb h2⟩
  | finally_ h0 hb h1 ih =>
    intro hs hq
    rcases suf ι.start (front_suffix h0) with i | s
    · exact absurd (at_end (Carry.opens no_names (by low) Carry.argNone i h1 (Carry.adds_nil _)).1 hs) hq
    · obtain ⟨x, s1, _, p1, ih⟩ := front_behind_of h0 s ih
      obtain ⟨_, _, _, h2⟩ := opens_after (by decide) Carry.argNone p1 h1 x
      exact ⟨x, .finally_ ih hb h2⟩

theorem front_behind (h : Front nv E fn cx b used r) (hs : r <:+ ι.κ.q0) :
    ∃ usedX s i, After ι i r s ∧ Front nv env' fn cx b usedX s := front_behind_of h hs (front_behind' h)

/-! ### Files -/

theorem fileErr {m : Str} {q : Pos} (hl : ∀ {cx b used m q}, Front nv E fn cx b used ι.κ.q0 →
    LineErr nv E fn cx b used ι.κ.q0 m q → ∀ x, LineErr nv env' fn cx b x ι.κ.q m (ι.μ.mp q)) (h : FileErr nv E fn m q) : FileErr nv env' fn m (ι.μ.mp q) := by
  cases h with
  | line h1 h2 =>
    obtain ⟨x, s, _, p, h3⟩ := front_behind h1 (front_lineErr h1 h2 ι.front)
    cases p with
    | behind => exact .line h3 (lineErr_any (lineErr_mv ι.μ (Names.refl _) h2) x)
    | here => exact .line h3 (hl h1 h2 x)
  | unclosed h1 h2 =>
    obtain ⟨x, s, _, p, h3⟩ := front_behind (ι := ι) h1 List.nil_suffix
    rw [p.eq ι.ne.symm, Mover.nil] at h3
    rw [← Mover.eof]
    exact .unclosed h3 h2

theorem fileErr_at {m : Str} {q : Pos} (h : FileErr nv E fn m q) : At E ι.κ.q0 q := by
  cases h with
  | line h1 h2 => exact lineErr_at (front_lineErr h1 h2 ι.front) h2
  | unclosed h1 h2 => exact ⟨[], List.nil_suffix, rfl⟩

theorem numErr (ι : Modifies nv lines env' fn) (hl : ∀ {cx b used}, Front nv E fn cx b used ι.κ.q0 →
    LineNum nv E fn used ι.κ.q0 → ∀ x, LineNum nv env' fn x ι.κ.q) (h : NumErr nv E fn) : NumErr nv env' fn := by
  cases h with
  | line h1 h2 =>
    obtain ⟨x, s, _, p, h3⟩ := front_behind h1 (front_lineNum h1 h2 ι.front)
    cases p with
    | behind => exact .line h3 (lineNum_any (lineNum_mv ι.μ (Names.refl _) h2) x)
    | here => exact .line h3 (hl h1 h2 x)

theorem script {f : Ast.File} (h : Script nv E fn f) : ∃ ss, As ι 1 f.body ss ∧ Script nv env' fn ⟨here env' fn env'.buf, ss⟩ := by
  obtain ⟨used, h1, _⟩ := h
  obtain ⟨x, s, ss, i, _, p, hr, h2⟩ := mid_to ι.start h1 (fun i => body_mid h1 .start i List.nil_suffix) [] (Carry.adds_nil _)
  cases p.count ι.ne.symm
  rw [p.eq ι.ne.symm, Mover.nil, ι.buf] at h2
  exact ⟨ss, hr, x, h2, rfl⟩

end Modifies
end Viml
