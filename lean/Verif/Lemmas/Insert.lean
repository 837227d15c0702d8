/-
Lines inserted between two statements of a file, possibly inside of blocks.

The text before the place is carried to the same place (`Carry`), the text behind it is moved (`Mover`).  A statement is
either before the place or behind it (`RunChain.lean`); only blocks are on both sides.
-/
import Verif.Lemmas.LocalCut
import Verif.Lemmas.RunChain
import Verif.Spec.Insert

namespace Viml
open Spec

/-- The text before a rest `q0` of a file is carried to the start of another file. -/
structure Fore (lines : List Str) (env' : Env) (fn : Str) where
  κ : Carry (mkEnv lines) env' fn
  nbd : ¬ κ.bd
  ne : κ.q0 ≠ []
  start : κ.To (mkEnv lines).buf
  buf : κ.tr (mkEnv lines).buf = env'.buf

/-- The lines `ws` are inserted at the rest `q0` of a file; `κ` carries the text before them, `μ` moves the text behind. -/
structure Inserted (nv : Bool) (lines : List Str) (env' : Env) (fn : Str) extends Fore lines env' fn where
  μ : Mover (mkEnv lines) env' fn
  ws : List Ast.Stmt
  m : κ.m = μ.κ.m
  /-- The user commands among `ws`. -/
  U : List Str
  upper : ∀ a ∈ U, Upper a
  new : ∀ cx used, (∀ a ∈ used, Upper a) → (∀ n, UserCmd ws n → Carry.Okay used n) → ∃ used', Carry.Adds U used used' ∧
    Body nv env' fn cx used κ.q ws used' (μ.tr κ.q0)
  cx : Ctx
  b : Option Inner
  used : List Str
  front : Front nv (mkEnv lines) fn cx b used κ.q0

theorem Spec.Into.append {ws a b c : List Ast.Stmt} (h : Into ws a b) : Into ws (a ++ c) (b ++ c) := by
  cases h with
  | here a b => have := Into.here (ws := ws) a (b ++ c); simpa using this
  | sub a b h => have := Into.sub (ws := ws) a (b ++ c) h; simpa using this

theorem Spec.Into.prepend {ws a b c : List Ast.Stmt} (h : Into ws a b) : Into ws (c ++ a) (c ++ b) := by
  cases h with
  | here a b => have := Into.here (ws := ws) (c ++ a) b; simpa using this
  | sub a b h => have := Into.sub (ws := ws) (c ++ a) b h; simpa using this

/-- Inserted in the body of an `:if` or in its `:elseif`s. -/
def IntoParts (ws a e a' e' : List Ast.Stmt) : Prop :=
  Into ws a a' ∧ e' = e ∨ a' = a ∧ ∃ x y s s', IntoS ws s s' ∧ e = x ++ s :: y ∧ e' = x ++ s' :: y

namespace Fore
variable {nv : Bool} {lines : List Str} {env' : Env} {fn : Str} (ι : Fore lines env' fn)
  {cx : Ctx} {b : Option Inner} {used used' used1 usedX : List Str} {r r' r1 r2 : List Cell}

local notation "E" => mkEnv lines
local notation "L" => Ast.Stmt.onPosL ι.κ.m

theorem no_names : ∀ a ∈ ([] : List Str), Upper a := fun _ h => by cases h

variable {ι}

theorem suf (h : ι.κ.To r) (hs : r' <:+ r) : ι.κ.In r' ∨ r' <:+ ι.κ.q0 := by
  rcases h with h | rfl
  · induction h with
    | eof h => exact absurd h ι.nbd
    | eol h =>
      rcases List.suffix_cons_iff.1 hs with rfl | hs
      · exact .inl (.eol h)
      · exact .inr hs
    | cons h ih =>
      rcases List.suffix_cons_iff.1 hs with rfl | hs
      · exact .inl (.cons h)
      · exact ih hs
  · exact .inr hs

theorem lt (h : ι.κ.In r) : ι.κ.q0.length < r.length := h.lt.resolve_right ι.nbd

theorem not_in (h : ι.κ.In r) (hs : r <:+ ι.κ.q0) : False := by
  have := hs.length_le
  have := lt h
  omega

theorem at_end (h : ι.κ.To r) (hs : r <:+ ι.κ.q0) : r = ι.κ.q0 := h.resolve_left fun h => not_in h hs

theorem up (h : ι.κ.To r) : ι.κ.Up r := h.imp id fun h => ⟨h, h ▸ ι.ne⟩

/-! ### Statements on one side -/

theorem before {ss} (h : Body nv E fn cx used r ss used' r') (t : ι.κ.To r) (t' : ι.κ.To r')
    (hu : Carry.Adds [] used usedX) : ∃ usedX', Carry.Adds [] used' usedX' ∧
      Body nv env' fn cx usedX (ι.κ.tr r) (L ss) usedX' (ι.κ.tr r') :=
  Carry.body no_names h t (up t') (fun _ _ _ h => by cases h) hu

/-! ### Correct lines -/

theorem leaves_for {r r' : List Cell} {a} (h : ForArgs E fn r a r') : r' <:+ r := by
  cases h with
  | mk a b c d => exact (((leaves_gram d).trans c.adv.suffix).trans b.adv.suffix).trans (leaves_lhs leaves_target a)

theorem opens_in {α : Type} {n : Str} {A : List Cell → α → List Cell → Prop} {ea a cm} (t : r' <:+ r → ι.κ.To r)
    (hA : ∀ {r a r'}, A r a r' → r' <:+ r) (t' : ι.κ.To r') (h : Spec.Opens nv E fn n A used r ea a cm used' r') : ι.κ.In r := by
  have t := t (opens_suf hA h)
  obtain ⟨r0, c, ra, r1, r2, _, h1, h2, h3⟩ := h
  obtain ⟨a1, a2, a3⟩ := head_track h1
  exact t.line List.suffix_rfl (up t') ((Carry.trail_len h3).imp
    (fun h => Nat.lt_of_lt_of_le h (((hA h2).trans a2.suffix).trans a3.suffix).length_le) id)

theorem from_start (hs : r <:+ (mkEnv lines).buf) (t' : ι.κ.To r') (h : r' <:+ r) : ι.κ.To r := ι.start.upto hs t' h

theorem front_before (h : Front nv E fn cx b used r) : ι.κ.To r → ∃ usedX, Front nv env' fn cx b usedX (ι.κ.tr r) := by
  induction h with
  | start => exact fun _ => ⟨[], by rw [ι.buf]; exact .start⟩
  | lines h0 h1 ih =>
    intro t'
    have t := from_start (front_suffix h0) t' (body_order h1).suffix
    obtain ⟨x, ih⟩ := ih t
    obtain ⟨_, _, h2⟩ := before h1 t t' (Carry.adds_nil _)
    obtain ⟨_, y, h2⟩ := body_any h2 x
    exact ⟨y, .lines ih h2⟩
  | function h0 h1 ih =>
    intro t
    have i := opens_in (from_start (front_suffix h0) t) (fun h => (funcHead_track h).1.suffix) t h1
    obtain ⟨x, ih⟩ := ih i.to
    exact ⟨x, .function ih (opens_any (by decide) (Carry.opens no_names (by low) Carry.argFunc i h1 (Carry.adds_nil _)).2.choose_spec.2 x)⟩
  | while_ h0 h1 ih =>
    intro t
    have i := opens_in (from_start (front_suffix h0) t) leaves_gram t h1
    obtain ⟨x, ih⟩ := ih i.to
    exact ⟨x, .while_ ih (opens_any (by decide) (Carry.opens no_names (by low) Carry.argGram i h1 (Carry.adds_nil _)).2.choose_spec.2 x)⟩
  | for_ h0 h1 ih =>
    intro t
    have i := opens_in (from_start (front_suffix h0) t) leaves_for t h1
    obtain ⟨x, ih⟩ := ih i.to
    exact ⟨x, .for_ ih (opens_any (by decide) (Carry.opens no_names (by low) Carry.argFor i h1 (Carry.adds_nil _)).2.choose_spec.2 x)⟩
  | if_ h0 h1 ih =>
    intro t
    have i := opens_in (from_start (front_suffix h0) t) leaves_gram t h1
    obtain ⟨x, ih⟩ := ih i.to
    exact ⟨x, .if_ ih (opens_any (by decide) (Carry.opens no_names (by low) Carry.argGram i h1 (Carry.adds_nil _)).2.choose_spec.2 x)⟩
  | try_ h0 h1 ih =>
    intro t
    have i := opens_in (from_start (front_suffix h0) t) leaves_none t h1
    obtain ⟨x, ih⟩ := ih i.to
    exact ⟨x, .try_ ih (opens_any (by decide) (Carry.opens no_names (by low) Carry.argNone i h1 (Carry.adds_nil _)).2.choose_spec.2 x)⟩
  | elseif h0 hb h1 ih =>
    intro t
    have i := opens_in (from_start (front_suffix h0) t) leaves_gram t h1
    obtain ⟨x, ih⟩ := ih i.to
    exact ⟨x, .elseif ih hb (opens_any (by decide) (Carry.opens no_names (by low) Carry.argGram i h1 (Carry.adds_nil _)).2.choose_spec.2 x)⟩
  | else_ h0 hb h1 ih =>
    intro t
    have i := opens_in (from_start (front_suffix h0) t) leaves_none t h1
    obtain ⟨x, ih⟩ := ih i.to
    exact ⟨x, .else_ ih hb (opens_any (by decide) (Carry.opens no_names (by low) Carry.argNone i h1 (Carry.adds_nil _)).2.choose_spec.2 x)⟩
  | catch_ h0 hb h1 ih =>
    intro t
    have i := opens_in (from_start (front_suffix h0) t) leaves_catch t h1
    obtain ⟨x, ih⟩ := ih i.to
    exact ⟨x, .catch_ ih hb (opens_any (by decide) (Carry.opens no_names (by low) Carry.argCatch i h1 (Carry.adds_nil _)).2.choose_spec.2 x)⟩
  | finally_ h0 hb h1 ih =>
    intro t
    have i := opens_in (from_start (front_suffix h0) t) leaves_none t h1
    obtain ⟨x, ih⟩ := ih i.to
    exact ⟨x, .finally_ ih hb (opens_any (by decide) (Carry.opens no_names (by low) Carry.argNone i h1 (Carry.adds_nil _)).2.choose_spec.2 x)⟩

end Fore

namespace Inserted
open Fore
variable {nv : Bool} {lines : List Str} {env' : Env} {fn : Str} (ι : Inserted nv lines env' fn)
  {cx : Ctx} {b : Option Inner} {used used' used1 usedX : List Str} {r r' r1 r2 : List Cell}

local notation "E" => mkEnv lines
local notation "L" => Ast.Stmt.onPosL ι.κ.m

variable {ι}

/-- The user command `n` may come before the statements inserted. -/
def Fit (ι : Inserted nv lines env' fn) (n : Str) : Prop := ∀ m, UserCmd ι.ws m → ∀ b, b ≠ [] → m ≠ n ++ b

/-- Statements behind the names `used` may have the statements inserted. -/
structure Good (ι : Inserted nv lines env' fn) (used : List Str) (ss : List Ast.Stmt) : Prop where
  names : ∀ n ∈ used, Upper n ∧ Fit ι n
  cmds : ∀ n, UserCmd ss n → Carry.Okay ι.U n ∧ Fit ι n

theorem Good.okay {ss} (hg : Good ι used ss) : ∀ n, UserCmd ss n → Carry.Okay ι.U n := fun n hn => (hg.cmds n hn).1

theorem Good.to {ss ss'} (hg : Good ι used ss) (h1 : ∀ n ∈ used', n ∈ used ∨ Upper n ∧ UserCmd ss n)
    (h2 : ∀ n, UserCmd ss' n → UserCmd ss n) : Good ι used' ss' where
  names n hn := (h1 n hn).elim (hg.names n) fun h => ⟨h.1, (hg.cmds n h.2).2⟩
  cmds n hn := hg.cmds n (h2 n hn)

theorem Good.mono {ss ss'} (hg : Good ι used ss) (h : ∀ x ∈ ss', x ∈ ss) : Good ι used ss' :=
  hg.to (fun _ hn => .inl hn) fun _ hn => hn.mono h

theorem part_last {a b ss : List Ast.Stmt} {s : Ast.Stmt} (h : ∀ x ∈ ss, x ∈ subStmts s) :
    ∀ n, UserCmd ss n → UserCmd (a ++ (b ++ [s])) n := by
  rintro n ⟨y, ea, p1, p2⟩
  exact ⟨y, ea, .sub (by simp : s ∈ _) (Spec.PartS.mono p1 h), p2⟩

theorem behind {ss} (h : Body nv E fn cx used r ss used' r') (hc : ∀ n, UserCmd ss n → Carry.Okay ι.U n)
    (hu : Carry.Adds ι.U used usedX) :
    ∃ usedX', Carry.Adds ι.U used' usedX' ∧ Body nv env' fn cx usedX (ι.μ.tr r) (L ss) usedX' (ι.μ.tr r') := by
  have := Carry.body (κ := ι.μ.κ) ι.upper h (ι.μ.all _).to (ι.μ.all _).up hc hu
  rwa [← ι.m] at this

theorem opens_behind {α : Type} {n : Str} {A A' : List Cell → α → List Cell → Prop} {g : α → α}
    {ea a cm} (hl : Low n) (hA : Carry.Argument ι.μ.κ A A' g)
    (h : Spec.Opens nv E fn n A used r ea a cm used' r') (hu : Carry.Adds ι.U used usedX) :
    ∃ usedX', Carry.Adds ι.U used' usedX' ∧
      Spec.Opens nv env' fn n A' usedX (ι.μ.tr r) (ea.onPos ι.κ.m) (g a) (L cm) usedX' (ι.μ.tr r') := by
  have := (Carry.opens (κ := ι.μ.κ) ι.upper hl hA (ι.μ.all _) h hu).2
  rwa [← ι.m] at this

theorem closes_behind {n : Str} {e : Ast.EndCmd} (hl : Low n)
    (h : Closes nv E fn n used r e used' r') (hu : Carry.Adds ι.U used usedX) :
    ∃ usedX', Carry.Adds ι.U used' usedX' ∧ Closes nv env' fn n usedX (ι.μ.tr r) (e.onPos ι.κ.m) usedX' (ι.μ.tr r') := by
  have := Carry.closes (κ := ι.μ.κ) ι.upper hl (ι.μ.all _) h hu
  rwa [← ι.m] at this

theorem trail_behind {cm} (h : Trail E fn r cm r') : Trail env' fn (ι.μ.tr r) (L cm) (ι.μ.tr r') := by
  have := (Carry.trail (κ := ι.μ.κ) (ι.μ.all _) h).2
  rwa [← ι.m] at this

theorem closes_in {n : Str} {e : Ast.EndCmd} (i : ι.κ.In r) (h : Closes nv E fn n used r e used' r') : ι.κ.In r' := by
  obtain ⟨r0, ea, c, ra, r1, rfl, h1, rfl, h3⟩ := h
  obtain ⟨i0, ia, i1, _⟩ := Carry.cmdHead (U := []) i (Carry.adds_nil used) (Carry.free_nil c) h1
  split at h3
  · obtain ⟨l, h3⟩ := h3
    exact (Carry.rest i1 h3).1
  · rw [h3]; exact i1

/-- The end of a block is behind the place only if the command that ends it is. -/
theorem closes_suf' {n : Str} {e : Ast.EndCmd} (t : ι.κ.To r) (hs : r1 <:+ r) (h : Closes nv E fn n used r1 e used' r')
    (h' : r' <:+ ι.κ.q0) : r1 <:+ ι.κ.q0 :=
  (suf t hs).resolve_left fun i => not_in (closes_in i h) h'

/-! ### Statements on both sides -/

/-- What is shown about statements from `r` to `r'`. -/
def Mid (ι : Inserted nv lines env' fn) (cx : Ctx) (used : List Str) (r : List Cell) (ss : List Ast.Stmt) (used' : List Str)
    (r' : List Cell) : Prop :=
  Good ι used ss → ∀ usedX, Carry.Adds [] used usedX → ∃ usedX' ssX, Carry.Adds ι.U used' usedX' ∧
    Body nv env' fn cx usedX (ι.κ.tr r) ssX usedX' (ι.μ.tr r') ∧ Into ι.ws (Ast.Stmt.onPosL ι.κ.m ss) ssX

theorem new_at (cx : Ctx) (hu : Carry.Adds [] used usedX) (hg : ∀ n ∈ used, Upper n ∧ Fit ι n) : ∃ used', Carry.Adds ι.U used used' ∧
    Body nv env' fn cx usedX ι.κ.q ι.ws used' (ι.μ.tr ι.κ.q0) := by
  have hu' : ∀ a ∈ usedX, a ∈ used := fun a ha => ((hu a).1 ha).elim id fun h => by cases h
  obtain ⟨u, h1, h2⟩ := ι.new cx usedX (fun a ha => (hg a (hu' a ha)).1)
    fun n hn a ha b hb e => (hg a (hu' a ha)).2 n hn b hb e
  refine ⟨u, fun x => ?_, h2⟩
  rw [h1 x, hu x]
  simp

/-- Statements up to the place. -/
theorem mid_end {ss} (h : Body nv E fn cx used r ss used' ι.κ.q0) (t : ι.κ.To r) : Mid ι cx used r ss used' ι.κ.q0 := by
  intro hg usedX hu
  obtain ⟨usedX', hu', h1⟩ := before h t (.inr rfl) hu
  rw [Carry.tr_end] at h1
  obtain ⟨usedY, hy, h2⟩ := new_at cx hu' (hg.to (ss' := []) (fun n hn => body_used h hn)
    fun n hn => hn.mono fun x hx => by cases hx).names
  refine ⟨usedY, _, hy, Body.append h1 h2, ?_⟩
  have := Into.here (ws := ι.ws) (L ss) []
  simpa using this

/-- Statements from the place. -/
theorem mid_start {ss} (h : Body nv E fn cx used ι.κ.q0 ss used' r') : Mid ι cx used ι.κ.q0 ss used' r' := by
  intro hg usedX hu
  obtain ⟨usedY, hy, h2⟩ := new_at cx hu hg.names
  obtain ⟨usedX', hu', h1⟩ := behind (ι := ι) h hg.okay hy
  rw [Carry.tr_end]
  refine ⟨usedX', _, hu', Body.append h2 h1, ?_⟩
  have := Into.here (ws := ι.ws) [] (L ss)
  simpa using this

theorem mid_to {ss} (t : ι.κ.To r) (h : Body nv E fn cx used r ss used' r') (ih : ι.κ.In r → Mid ι cx used r ss used' r') :
    Mid ι cx used r ss used' r' := by
  rcases t with i | rfl
  · exact ih i
  · exact mid_start h

/-- Statements on both sides, and one more that does not reach behind the place if it starts before it. -/
theorem mid_line {ss ss1 xs} (h : Body nv E fn cx used r ss1 used1 r1) (i : ι.κ.In r) (hs : r' <:+ ι.κ.q0)
    (h1 : Body nv E fn cx used1 r1 xs used' r') (e : ss = ss1 ++ xs) (ih : r1 <:+ ι.κ.q0 → Mid ι cx used r ss1 used1 r1)
    (ht : ι.κ.In r1 → ι.κ.To r') : Mid ι cx used r ss used' r' := by
  subst e
  rcases suf i.to (body_order h).suffix with i1 | hs1
  · obtain rfl := at_end (ht i1) hs
    exact mid_end (Body.append h h1) i.to
  · intro hg usedX hu
    obtain ⟨usedX1, ssX, hu1, h2, h3⟩ := ih hs1 (hg.mono fun x hx => by simp [hx]) usedX hu
    obtain ⟨usedX', hu', h4⟩ := behind (ι := ι) h1 (hg.mono (ss' := xs) fun x hx => by simp [hx]).okay hu1
    refine ⟨usedX', _, hu', Body.append h2 h4, ?_⟩
    rw [onPosS_append]
    exact h3.append

theorem front_ifPart {cx b used r ea ss y eis used' r'} : IfPart nv E fn cx used r ea ss y eis used' r' →
    Front nv E fn cx b used r → ∃ b', ifLike b' ∧ Front nv E fn cx.block b' used' r'
  | .if_ h1 h2, hf => ⟨some .if_, by simp [ifLike], .lines (.if_ hf h1) h2⟩
  | .elseif h1 h2 h3, hf => by
    obtain ⟨b', h4, h5⟩ := front_ifPart h1 hf
    exact ⟨some .elseif, by simp [ifLike], .lines (.elseif h5 h4 h2) h3⟩

theorem front_tryPart {cx b used r ea ss cs used' r'} : TryPart nv E fn cx used r ea ss cs used' r' →
    Front nv E fn cx b used r → ∃ b', tryLike b' ∧ Front nv E fn cx.block b' used' r'
  | .try_ h1 h2, hf => ⟨some .try_, by simp [tryLike], .lines (.try_ hf h1) h2⟩
  | .catch_ h1 h2 h3, hf => by
    obtain ⟨b', h4, h5⟩ := front_tryPart h1 hf
    exact ⟨some .catch_, by simp [tryLike], .lines (.catch_ h5 h4 h2) h3⟩

mutual

theorem body_mid {cx b used r ss used' r'} : Body nv E fn cx used r ss used' r' → Front nv E fn cx b used r → ι.κ.In r →
    r' <:+ ι.κ.q0 → Mid ι cx used r ss used' r'
  | .nil, _, i, hs => (not_in i hs).elim
  | .shebang h h1 h2 h3, hf, i, hs =>
    mid_line h i hs (.shebang .nil h1 h2 h3) (by simp) (body_mid h hf i) fun i1 => (Carry.reads i1 h2).1.tail
  | .empty h h2 h3, hf, i, hs =>
    mid_line h i hs (.empty .nil h2 h3) (by simp) (body_mid h hf i) fun i1 => (Carry.skipC i1 h2).1.tail
  | .comment h h2 h3, hf, i, hs =>
    mid_line h i hs (.comment .nil h2 h3) (by simp) (body_mid h hf i) fun i1 =>
      (Carry.comment (Carry.skipC i1 h2).1 h3).1
  | .noCommand h h1 h2 h3 h4, hf, i, hs =>
    mid_line h i hs (.noCommand .nil h1 h2 h3 h4) (by simp) (body_mid h hf i) fun i1 =>
      (Carry.trail (Carry.before i1 h1).2.1 h4).1
  | .simple h h1 h2 h3, hf, i, hs =>
    mid_line h i hs (.simple .nil h1 h2 h3) (by simp) (body_mid h hf i) fun i1 =>
      i1.to.cut ((trail_order h3).suffix.trans (simple_order h1 h2).suffix)
        (front_simple (.lines hf h) h1 h2 h3 ι.front (lt i1))
  | .block (r1 := r1) (r2 := r2) h h1 h2, hf, i, hs => by
    have s1 := (body_order h).suffix
    by_cases hc : ι.κ.In r1 ∧ r2 <:+ ι.κ.q0
    · intro hg usedX hu
      obtain ⟨usedX1, hu1, a1⟩ := before h i.to hc.1.to hu
      obtain ⟨usedX2, sX, hu2, a2, a3⟩ := block_mid h1 (.lines hf h) hc.1 hc.2
        (hg.to (fun n hn => (body_used h hn).imp id fun hn => ⟨hn.1, hn.2.mono fun x hx => by simp [hx]⟩)
          fun n hn => hn.mono fun x hx => by simp at hx; simp [hx]) usedX1 hu1
      refine ⟨usedX2, _, hu2, .block a1 a2 (trail_behind h2), ?_⟩
      rw [onPosS_append, onPosS_append]
      refine Into.append (Into.prepend ?_)
      exact .sub [] [] a3
    · refine mid_line h i hs (.block .nil h1 h2) (by simp) (body_mid h hf i) fun i1 => ?_
      rcases suf i1.to (block_order h1).suffix with i2 | hs2
      · exact (Carry.trail i2 h2).1
      · exact absurd ⟨i1, hs2⟩ hc

theorem block_mid {cx b used r s used' r'} : Block nv E fn cx used r s used' r' → Front nv E fn cx b used r → ι.κ.In r →
    r' <:+ ι.κ.q0 → Good ι used [s] → ∀ usedX, Carry.Adds [] used usedX → ∃ usedX' sX, Carry.Adds ι.U used' usedX' ∧
      Block nv env' fn cx usedX (ι.κ.tr r) sX usedX' (ι.μ.tr r') ∧ IntoS ι.ws (s.onPos ι.κ.m) sX
  | .function h1 h2 h3, hf, i, hs, hg, usedX, hu => by
    obtain ⟨t1, usedX1, hu1, a1⟩ := Carry.opens no_names (by low) Carry.argFunc i h1 hu
    have s2 := closes_suf' t1 (body_order h2).suffix h3 hs
    obtain ⟨usedX2, ssX, hu2, a2, a3⟩ := mid_to t1 h2 (fun i1 => body_mid h2 (.function hf h1) i1 s2)
      (hg.to (fun n hn => .inl (opens_used h1 (by low) hn)) fun n hn => hn.sub fun x hx => by simp [subStmts, hx]) usedX1 hu1
    obtain ⟨usedX3, hu3, a4⟩ := closes_behind (ι := ι) (by low) h3 hu2
    refine ⟨usedX3, _, hu3, .function a1 a2 a4, ?_⟩
    rw [Ast.Stmt.onPos, onPosS_append]
    exact .function a3.prepend
  | .while_ h1 h2 h3, hf, i, hs, hg, usedX, hu => by
    obtain ⟨t1, usedX1, hu1, a1⟩ := Carry.opens no_names (by low) Carry.argGram i h1 hu
    have s2 := closes_suf' t1 (body_order h2).suffix h3 hs
    obtain ⟨usedX2, ssX, hu2, a2, a3⟩ := mid_to t1 h2 (fun i1 => body_mid h2 (.while_ hf h1) i1 s2)
      (hg.to (fun n hn => .inl (opens_used h1 (by low) hn)) fun n hn => hn.sub fun x hx => by simp [subStmts, hx]) usedX1 hu1
    obtain ⟨usedX3, hu3, a4⟩ := closes_behind (ι := ι) (by low) h3 hu2
    refine ⟨usedX3, _, hu3, .while_ a1 a2 a4, ?_⟩
    rw [Ast.Stmt.onPos, onPosS_append]
    exact .while_ a3.prepend
  | .for_ h1 h2 h3, hf, i, hs, hg, usedX, hu => by
    obtain ⟨t1, usedX1, hu1, a1⟩ := Carry.opens no_names (by low) Carry.argFor i h1 hu
    have s2 := closes_suf' t1 (body_order h2).suffix h3 hs
    obtain ⟨usedX2, ssX, hu2, a2, a3⟩ := mid_to t1 h2 (fun i1 => body_mid h2 (.for_ hf h1) i1 s2)
      (hg.to (fun n hn => .inl (opens_used h1 (by low) hn)) fun n hn => hn.sub fun x hx => by simp [subStmts, hx]) usedX1 hu1
    obtain ⟨usedX3, hu3, a4⟩ := closes_behind (ι := ι) (by low) h3 hu2
    refine ⟨usedX3, _, hu3, .for_ a1 a2 a4, ?_⟩
    rw [Ast.Stmt.onPos, onPosS_append]
    exact .for_ a3.prepend
  | .if_ h1 h2, hf, i, hs, hg, usedX, hu => by
    have s1 := closes_suf' i.to (ifPart_suf h1) h2 hs
    obtain ⟨usedX1, ssX, eisX, hu1, a1, a2⟩ := ifPart_mid h1 hf i s1 (hg.to (fun _ hn => .inl hn) fun n hn => hn.sub fun x hx => by simpa [subStmts] using hx) usedX hu
    obtain ⟨usedX3, hu3, a4⟩ := closes_behind (ι := ι) (by low) h2 hu1
    refine ⟨usedX3, _, hu3, .if_ a1 a4, ?_⟩
    rw [Ast.Stmt.onPos]
    rcases a2 with ⟨a2, rfl⟩ | ⟨rfl, x, y, s, s', a2, a3, rfl⟩
    · exact .if_ a2
    · rw [a3]; exact .elseIfs a2
  | .ifElse (r1 := r1) h1 h2 h3 h4, hf, i, hs, hg, usedX, hu => by
    have s2 := opens_suf (fun h => by cases h; exact List.suffix_refl _) h2
    have s3 := closes_suf' i.to (((body_order h3).suffix.trans s2).trans (ifPart_suf h1)) h4 hs
    rcases suf i.to (ifPart_suf h1) with i1 | s1
    · obtain ⟨usedX1, hu1, a1⟩ := Carry.ifPart no_names h1 i i1 (fun _ _ _ h => by cases h) hu
      obtain ⟨t2, usedX2, hu2, a2⟩ := Carry.opens no_names (by low) Carry.argNone i1 h2 hu1
      obtain ⟨b', hb, hf1⟩ := front_ifPart h1 hf
      obtain ⟨usedX3, ssX, hu3, a3, a4⟩ := mid_to t2 h3 (fun i2 => body_mid h3 (.else_ hf1 hb h2) i2 s3)
        (hg.to (fun n hn => (ifPart_used h1 (opens_used h2 (by low) hn)).imp id fun hn => ⟨hn.1, hn.2.sub fun x hx => by
          simp only [subStmts, List.mem_append] at hx ⊢
          exact .inl hx⟩) fun n hn => by
          obtain ⟨y, ea, p1, p2⟩ := hn
          exact ⟨y, ea, .sub (List.mem_singleton.2 rfl) (.sub mem_else (Spec.PartS.mono p1 fun x hx => by simp [subStmts, hx])), p2⟩) usedX2 hu2
      obtain ⟨usedX4, hu4, a5⟩ := closes_behind (ι := ι) (by low) h4 hu3
      refine ⟨usedX4, _, hu4, .ifElse a1 a2 a3 a5, ?_⟩
      rw [Ast.Stmt.onPos, Ast.Stmt.onPosO, Ast.Stmt.onPos, onPosS_append]
      exact .elsePart (.else_ a4.prepend)
    · obtain ⟨usedX1, ssX, eisX, hu1, a1, a2⟩ := ifPart_mid h1 hf i s1 (hg.to (fun _ hn => .inl hn) fun n hn => hn.sub fun x hx => by
        simp only [subStmts, List.mem_append] at hx ⊢
        exact .inl hx) usedX hu
      obtain ⟨usedX2, hu2, a3⟩ := opens_behind (ι := ι) (by low) Carry.argNone h2 hu1
      obtain ⟨usedX3, hu3, a4⟩ := behind (ι := ι) h3 (fun n hn => hg.okay n (by
        obtain ⟨y, ea, p1, p2⟩ := hn
        exact ⟨y, ea, .sub (List.mem_singleton.2 rfl) (.sub mem_else (Spec.PartS.mono p1 fun x hx => by simp [subStmts, hx])), p2⟩)) hu2
      obtain ⟨usedX4, hu4, a5⟩ := closes_behind (ι := ι) (by low) h4 hu3
      refine ⟨usedX4, _, hu4, .ifElse a1 a3 a4 a5, ?_⟩
      rw [Ast.Stmt.onPos, Ast.Stmt.onPosO, Ast.Stmt.onPos, onPosS_append]
      rcases a2 with ⟨a2, rfl⟩ | ⟨rfl, x, y, s, s', a2, a6, rfl⟩
      · exact .if_ a2
      · rw [a6]; exact .elseIfs a2
  | .try_ h1 h2, hf, i, hs, hg, usedX, hu => by
    have s1 := closes_suf' i.to (tryPart_suf h1) h2 hs
    obtain ⟨usedX1, ssX, eisX, hu1, a1, a2⟩ := tryPart_mid h1 hf i s1 (hg.to (fun _ hn => .inl hn) fun n hn => hn.sub fun x hx => by simpa [subStmts] using hx) usedX hu
    obtain ⟨usedX3, hu3, a4⟩ := closes_behind (ι := ι) (by low) h2 hu1
    refine ⟨usedX3, _, hu3, .try_ a1 a4, ?_⟩
    rw [Ast.Stmt.onPos]
    rcases a2 with ⟨a2, rfl⟩ | ⟨rfl, x, y, s, s', a2, a3, rfl⟩
    · exact .try_ a2
    · rw [a3]; exact .catches a2
  | .tryFinally (r1 := r1) h1 h2 h3 h4, hf, i, hs, hg, usedX, hu => by
    have s2 := opens_suf (fun h => by cases h; exact List.suffix_refl _) h2
    have s3 := closes_suf' i.to (((body_order h3).suffix.trans s2).trans (tryPart_suf h1)) h4 hs
    rcases suf i.to (tryPart_suf h1) with i1 | s1
    · obtain ⟨usedX1, hu1, a1⟩ := Carry.tryPart no_names h1 i i1 (fun _ _ _ h => by cases h) hu
      obtain ⟨t2, usedX2, hu2, a2⟩ := Carry.opens no_names (by low) Carry.argNone i1 h2 hu1
      obtain ⟨b', hb, hf1⟩ := front_tryPart h1 hf
      obtain ⟨usedX3, ssX, hu3, a3, a4⟩ := mid_to t2 h3 (fun i2 => body_mid h3 (.finally_ hf1 hb h2) i2 s3)
        (hg.to (fun n hn => (tryPart_used h1 (opens_used h2 (by low) hn)).imp id fun hn => ⟨hn.1, hn.2.sub fun x hx => by
          simp only [subStmts, List.mem_append] at hx ⊢
          exact .inl hx⟩) fun n hn => by
          obtain ⟨y, ea, p1, p2⟩ := hn
          exact ⟨y, ea, .sub (List.mem_singleton.2 rfl) (.sub mem_finally (Spec.PartS.mono p1 fun x hx => by simp [subStmts, hx])), p2⟩) usedX2 hu2
      obtain ⟨usedX4, hu4, a5⟩ := closes_behind (ι := ι) (by low) h4 hu3
      refine ⟨usedX4, _, hu4, .tryFinally a1 a2 a3 a5, ?_⟩
      rw [Ast.Stmt.onPos, Ast.Stmt.onPosO, Ast.Stmt.onPos, onPosS_append]
      exact .finallyPart (.finally_ a4.prepend)
    · obtain ⟨usedX1, ssX, eisX, hu1, a1, a2⟩ := tryPart_mid h1 hf i s1 (hg.to (fun _ hn => .inl hn) fun n hn => hn.sub fun x hx => by
        simp only [subStmts, List.mem_append] at hx ⊢
        exact .inl hx) usedX hu
      obtain ⟨usedX2, hu2, a3⟩ := opens_behind (ι := ι) (by low) Carry.argNone h2 hu1
      obtain ⟨usedX3, hu3, a4⟩ := behind (ι := ι) h3 (fun n hn => hg.okay n (by
        obtain ⟨y, ea, p1, p2⟩ := hn
        exact ⟨y, ea, .sub (List.mem_singleton.2 rfl) (.sub mem_finally (Spec.PartS.mono p1 fun x hx => by simp [subStmts, hx])), p2⟩)) hu2
      obtain ⟨usedX4, hu4, a5⟩ := closes_behind (ι := ι) (by low) h4 hu3
      refine ⟨usedX4, _, hu4, .tryFinally a1 a3 a4 a5, ?_⟩
      rw [Ast.Stmt.onPos, Ast.Stmt.onPosO, Ast.Stmt.onPos, onPosS_append]
      rcases a2 with ⟨a2, rfl⟩ | ⟨rfl, x, y, s, s', a2, a6, rfl⟩
      · exact .try_ a2
      · rw [a6]; exact .catches a2

theorem ifPart_mid {cx b used r ea ss y eis used' r'} : IfPart nv E fn cx used r ea ss y eis used' r' →
    Front nv E fn cx b used r → ι.κ.In r → r' <:+ ι.κ.q0 → Good ι used (ss ++ eis) → ∀ usedX, Carry.Adds [] used usedX →
    ∃ usedX' ssX eisX, Carry.Adds ι.U used' usedX' ∧
      IfPart nv env' fn cx usedX (ι.κ.tr r) (ea.onPos ι.κ.m) ssX (y.onPos ι.κ.m) eisX usedX' (ι.μ.tr r') ∧
      IntoParts ι.ws (Ast.Stmt.onPosL ι.κ.m ss) (Ast.Stmt.onPosL ι.κ.m eis) ssX eisX
  | .if_ h1 h2, hf, i, hs, hg, usedX, hu => by
    obtain ⟨t1, usedX1, hu1, a1⟩ := Carry.opens no_names (by low) Carry.argGram i h1 hu
    obtain ⟨usedX2, ssX, hu2, a2, a3⟩ := mid_to t1 h2 (fun i1 => body_mid h2 (.if_ hf h1) i1 hs)
      (hg.to (fun n hn => .inl (opens_used h1 (by low) hn)) fun n hn => hn.mono fun x hx => by simp [hx]) usedX1 hu1
    refine ⟨usedX2, _, _, hu2, .if_ a1 a2, .inl ⟨?_, rfl⟩⟩
    rw [onPosS_append]
    exact a3.prepend
  | .elseif h1 h2 h3, hf, i, hs, hg, usedX, hu => by
    rcases suf i.to (ifPart_suf h1) with i1 | s1
    · obtain ⟨usedX1, hu1, a1⟩ := Carry.ifPart no_names h1 i i1 (fun _ _ _ h => by cases h) hu
      obtain ⟨t2, usedX2, hu2, a2⟩ := Carry.opens no_names (by low) Carry.argGram i1 h2 hu1
      obtain ⟨b', hb, hf1⟩ := front_ifPart h1 hf
      obtain ⟨usedX3, ssX, hu3, a3, a4⟩ := mid_to t2 h3 (fun i2 => body_mid h3 (.elseif hf1 hb h2) i2 hs)
        (hg.to (fun n hn => (ifPart_used h1 (opens_used h2 (by low) hn)).imp id fun hn => ⟨hn.1, hn.2.mono fun x hx => by
          simp only [List.mem_append] at hx ⊢
          exact hx.imp id .inl⟩) (part_last fun x hx => by simp [subStmts, hx])) usedX2 hu2
      refine ⟨usedX3, _, _, hu3, .elseif a1 a2 a3, .inr ⟨rfl, _, [], _, _, .elseIf a4.prepend, ?_, rfl⟩⟩
      rw [onPosS_append, Ast.Stmt.onPosL, Ast.Stmt.onPosL, Ast.Stmt.onPos, onPosS_append]
      rfl
    · obtain ⟨usedX1, ssX, eisX, hu1, a1, a2⟩ := ifPart_mid h1 hf i s1 (hg.mono fun x hx => by
        simp only [List.mem_append] at hx ⊢
        exact hx.imp id .inl) usedX hu
      obtain ⟨usedX2, hu2, a3⟩ := opens_behind (ι := ι) (by low) Carry.argGram h2 hu1
      obtain ⟨usedX3, hu3, a4⟩ := behind (ι := ι) h3 (fun n hn => hg.okay n (part_last (fun x hx => by simp [subStmts, hx]) n hn)) hu2
      refine ⟨usedX3, _, _, hu3, .elseif a1 (by rw [← ι.m] at a3; exact a3) a4, ?_⟩
      rw [onPosS_append, Ast.Stmt.onPosL, Ast.Stmt.onPosL, Ast.Stmt.onPos, onPosS_append]
      rcases a2 with ⟨a2, rfl⟩ | ⟨rfl, x, y, s, s', a2, a6, rfl⟩
      · exact .inl ⟨a2, rfl⟩
      · exact .inr ⟨rfl, x, _, s, s', a2, by rw [a6]; simp; rfl, by simp; rfl⟩

theorem tryPart_mid {cx b used r ea ss cs used' r'} : TryPart nv E fn cx used r ea ss cs used' r' →
    Front nv E fn cx b used r → ι.κ.In r → r' <:+ ι.κ.q0 → Good ι used (ss ++ cs) → ∀ usedX, Carry.Adds [] used usedX →
    ∃ usedX' ssX csX, Carry.Adds ι.U used' usedX' ∧
      TryPart nv env' fn cx usedX (ι.κ.tr r) (ea.onPos ι.κ.m) ssX csX usedX' (ι.μ.tr r') ∧
      IntoParts ι.ws (Ast.Stmt.onPosL ι.κ.m ss) (Ast.Stmt.onPosL ι.κ.m cs) ssX csX
  | .try_ h1 h2, hf, i, hs, hg, usedX, hu => by
    obtain ⟨t1, usedX1, hu1, a1⟩ := Carry.opens no_names (by low) Carry.argNone i h1 hu
    obtain ⟨usedX2, ssX, hu2, a2, a3⟩ := mid_to t1 h2 (fun i1 => body_mid h2 (.try_ hf h1) i1 hs)
      (hg.to (fun n hn => .inl (opens_used h1 (by low) hn)) fun n hn => hn.mono fun x hx => by simp [hx]) usedX1 hu1
    refine ⟨usedX2, _, _, hu2, .try_ a1 a2, .inl ⟨?_, rfl⟩⟩
    rw [onPosS_append]
    exact a3.prepend
  | .catch_ h1 h2 h3, hf, i, hs, hg, usedX, hu => by
    rcases suf i.to (tryPart_suf h1) with i1 | s1
    · obtain ⟨usedX1, hu1, a1⟩ := Carry.tryPart no_names h1 i i1 (fun _ _ _ h => by cases h) hu
      obtain ⟨t2, usedX2, hu2, a2⟩ := Carry.opens no_names (by low) Carry.argCatch i1 h2 hu1
      obtain ⟨b', hb, hf1⟩ := front_tryPart h1 hf
      obtain ⟨usedX3, ssX, hu3, a3, a4⟩ := mid_to t2 h3 (fun i2 => body_mid h3 (.catch_ hf1 hb h2) i2 hs)
        (hg.to (fun n hn => (tryPart_used h1 (opens_used h2 (by low) hn)).imp id fun hn => ⟨hn.1, hn.2.mono fun x hx => by
          simp only [List.mem_append] at hx ⊢
          exact hx.imp id .inl⟩) (part_last fun x hx => by simp [subStmts, hx])) usedX2 hu2
      refine ⟨usedX3, _, _, hu3, .catch_ a1 a2 a3, .inr ⟨rfl, _, [], _, _, .catch_ a4.prepend, ?_, rfl⟩⟩
      rw [onPosS_append, Ast.Stmt.onPosL, Ast.Stmt.onPosL, Ast.Stmt.onPos, onPosS_append]
      rfl
    · obtain ⟨usedX1, ssX, eisX, hu1, a1, a2⟩ := tryPart_mid h1 hf i s1 (hg.mono fun x hx => by
        simp only [List.mem_append] at hx ⊢
        exact hx.imp id .inl) usedX hu
      obtain ⟨usedX2, hu2, a3⟩ := opens_behind (ι := ι) (by low) Carry.argCatch h2 hu1
      obtain ⟨usedX3, hu3, a4⟩ := behind (ι := ι) h3 (fun n hn => hg.okay n (part_last (fun x hx => by simp [subStmts, hx]) n hn)) hu2
      refine ⟨usedX3, _, _, hu3, .catch_ a1 a3 a4, ?_⟩
      rw [onPosS_append, Ast.Stmt.onPosL, Ast.Stmt.onPosL, Ast.Stmt.onPos, onPosS_append]
      rcases a2 with ⟨a2, rfl⟩ | ⟨rfl, x, y, s, s', a2, a6, rfl⟩
      · exact .inl ⟨a2, rfl⟩
      · exact .inr ⟨rfl, x, _, s, s', a2, by rw [a6]; simp; rfl, by simp; rfl⟩

end

/-! ### Statements on both sides, whatever their names -/

theorem before_any {ss} (h : Body nv E fn cx used r ss used' r') (t : ι.κ.To r) (t' : ι.κ.To r') (usedX : List Str) :
    ∃ ssX usedX', Body nv env' fn cx usedX (ι.κ.tr r) ssX usedX' (ι.κ.tr r') := by
  obtain ⟨_, _, h1⟩ := before h t t' (Carry.adds_nil _)
  exact body_any h1 usedX

theorem new_any (ι : Inserted nv lines env' fn) (cx : Ctx) (usedX : List Str) :
    ∃ ssX usedX', Body nv env' fn cx usedX ι.κ.q ssX usedX' (ι.μ.tr ι.κ.q0) := by
  obtain ⟨_, _, h⟩ := ι.new cx [] (fun _ h => by cases h) fun _ _ a ha => by cases ha
  exact body_any h usedX

theorem closes_any' {n : Str} {e : Ast.EndCmd} (hl : lowB n = true) (h : Closes nv E fn n used r e used' r')
    (usedX : List Str) : Closes nv env' fn n usedX (ι.μ.tr r) (e.onPos ι.μ.κ.m) usedX (ι.μ.tr r') := by
  have hl' : Low n := by
    rintro c s rfl h
    simp [lowB, h] at hl
  obtain ⟨_, _, h1⟩ := Carry.closes (κ := ι.μ.κ) no_names hl' (ι.μ.all _) h (Carry.adds_nil _)
  exact closes_any hl h1 usedX

/-- There are statements from `r` to `r'`. -/
def Cross (ι : Inserted nv lines env' fn) (cx : Ctx) (r r' : List Cell) : Prop :=
  ∀ usedX, ∃ ssX usedX', Body nv env' fn cx usedX (ι.κ.tr r) ssX usedX' (ι.μ.tr r')

theorem cross_end {ss} (h : Body nv E fn cx used r ss used' ι.κ.q0) (t : ι.κ.To r) : Cross ι cx r ι.κ.q0 := by
  intro usedX
  obtain ⟨_, u, h1⟩ := before_any h t (.inr rfl) usedX
  rw [Carry.tr_end] at h1
  obtain ⟨_, v, h2⟩ := new_any ι cx u
  exact ⟨_, v, Body.append h1 h2⟩

theorem cross_to {ss} (t : ι.κ.To r) (h : Body nv E fn cx used r ss used' r') (ih : ι.κ.In r → Cross ι cx r r') :
    Cross ι cx r r' := by
  rcases t with i | rfl
  · exact ih i
  · intro usedX
    obtain ⟨_, v, h2⟩ := new_any ι cx usedX
    obtain ⟨_, u, h1⟩ := body_mv ι.μ h v
    rw [Carry.tr_end]
    exact ⟨_, u, Body.append h2 h1⟩

theorem cross_line {ss1 xs} (h : Body nv E fn cx used r ss1 used1 r1) (i : ι.κ.In r) (hs : r' <:+ ι.κ.q0)
    (h1 : Body nv E fn cx used1 r1 xs used' r') (ih : r1 <:+ ι.κ.q0 → Cross ι cx r r1)
    (ht : ι.κ.In r1 → ι.κ.To r') : Cross ι cx r r' := by
  rcases suf i.to (body_order h).suffix with i1 | hs1
  · obtain rfl := at_end (ht i1) hs
    exact cross_end (Body.append h h1) i.to
  · intro usedX
    obtain ⟨_, u, h2⟩ := ih hs1 usedX
    obtain ⟨_, v, h4⟩ := body_mv ι.μ h1 u
    exact ⟨_, v, Body.append h2 h4⟩

mutual

theorem body_cross {cx b used r ss used' r'} : Body nv E fn cx used r ss used' r' → Front nv E fn cx b used r → ι.κ.In r →
    r' <:+ ι.κ.q0 → Cross ι cx r r'
  | .nil, _, i, hs => (not_in i hs).elim
  | .shebang h h1 h2 h3, hf, i, hs =>
    cross_line h i hs (.shebang .nil h1 h2 h3) (body_cross h hf i) fun i1 => (Carry.reads i1 h2).1.tail
  | .empty h h2 h3, hf, i, hs =>
    cross_line h i hs (.empty .nil h2 h3) (body_cross h hf i) fun i1 => (Carry.skipC i1 h2).1.tail
  | .comment h h2 h3, hf, i, hs =>
    cross_line h i hs (.comment .nil h2 h3) (body_cross h hf i) fun i1 => (Carry.comment (Carry.skipC i1 h2).1 h3).1
  | .noCommand h h1 h2 h3 h4, hf, i, hs =>
    cross_line h i hs (.noCommand .nil h1 h2 h3 h4) (body_cross h hf i) fun i1 => (Carry.trail (Carry.before i1 h1).2.1 h4).1
  | .simple h h1 h2 h3, hf, i, hs =>
    cross_line h i hs (.simple .nil h1 h2 h3) (body_cross h hf i) fun i1 =>
      i1.to.cut ((trail_order h3).suffix.trans (simple_order h1 h2).suffix)
        (front_simple (.lines hf h) h1 h2 h3 ι.front (lt i1))
  | .block (r1 := r1) (r2 := r2) h h1 h2, hf, i, hs => by
    by_cases hc : ι.κ.In r1 ∧ r2 <:+ ι.κ.q0
    · intro usedX
      obtain ⟨_, u, a1⟩ := before_any h i.to hc.1.to usedX
      obtain ⟨_, v, a2⟩ := block_cross h1 (.lines hf h) hc.1 hc.2 u
      exact ⟨_, v, .block a1 a2 (trail_behind h2)⟩
    · refine cross_line h i hs (.block .nil h1 h2) (body_cross h hf i) fun i1 => ?_
      rcases suf i1.to (block_order h1).suffix with i2 | hs2
      · exact (Carry.trail i2 h2).1
      · exact absurd ⟨i1, hs2⟩ hc

theorem block_cross {cx b used r s used' r'} : Block nv E fn cx used r s used' r' → Front nv E fn cx b used r → ι.κ.In r →
    r' <:+ ι.κ.q0 → ∀ usedX, ∃ sX usedX', Block nv env' fn cx usedX (ι.κ.tr r) sX usedX' (ι.μ.tr r')
  | .function h1 h2 h3, hf, i, hs, x => by
    obtain ⟨t1, _, _, a1⟩ := Carry.opens no_names (by low) Carry.argFunc i h1 (Carry.adds_nil _)
    have s2 := closes_suf' t1 (body_order h2).suffix h3 hs
    obtain ⟨_, u, a2⟩ := cross_to t1 h2 (fun i1 => body_cross h2 (.function hf h1) i1 s2) x
    exact ⟨_, _, .function (opens_any (by decide) a1 x) a2 (closes_any' (by decide) h3 u)⟩
  | .while_ h1 h2 h3, hf, i, hs, x => by
    obtain ⟨t1, _, _, a1⟩ := Carry.opens no_names (by low) Carry.argGram i h1 (Carry.adds_nil _)
    have s2 := closes_suf' t1 (body_order h2).suffix h3 hs
    obtain ⟨_, u, a2⟩ := cross_to t1 h2 (fun i1 => body_cross h2 (.while_ hf h1) i1 s2) x
    exact ⟨_, _, .while_ (opens_any (by decide) a1 x) a2 (closes_any' (by decide) h3 u)⟩
  | .for_ h1 h2 h3, hf, i, hs, x => by
    obtain ⟨t1, _, _, a1⟩ := Carry.opens no_names (by low) Carry.argFor i h1 (Carry.adds_nil _)
    have s2 := closes_suf' t1 (body_order h2).suffix h3 hs
    obtain ⟨_, u, a2⟩ := cross_to t1 h2 (fun i1 => body_cross h2 (.for_ hf h1) i1 s2) x
    exact ⟨_, _, .for_ (opens_any (by decide) a1 x) a2 (closes_any' (by decide) h3 u)⟩
  | .if_ h1 h2, hf, i, hs, x => by
    have s1 := closes_suf' i.to (ifPart_suf h1) h2 hs
    obtain ⟨_, _, _, _, u, a1⟩ := ifPart_cross h1 hf i s1 x
    exact ⟨_, _, .if_ a1 (closes_any' (by decide) h2 u)⟩
  | .ifElse (r1 := r1) h1 h2 h3 h4, hf, i, hs, x => by
    have s2 := opens_suf (fun h => by cases h; exact List.suffix_refl _) h2
    have s3 := closes_suf' i.to (((body_order h3).suffix.trans s2).trans (ifPart_suf h1)) h4 hs
    rcases suf i.to (ifPart_suf h1) with i1 | s1
    · obtain ⟨_, _, a1⟩ := Carry.ifPart no_names h1 i i1 (fun _ _ _ h => by cases h) (Carry.adds_nil _)
      obtain ⟨_, _, _, _, u, a1⟩ := ifPart_any a1 x
      obtain ⟨t2, _, _, a2⟩ := Carry.opens no_names (by low) Carry.argNone i1 h2 (Carry.adds_nil _)
      obtain ⟨b', hb, hf1⟩ := front_ifPart h1 hf
      obtain ⟨_, v, a3⟩ := cross_to t2 h3 (fun i2 => body_cross h3 (.else_ hf1 hb h2) i2 s3) u
      exact ⟨_, _, .ifElse a1 (opens_any (by decide) a2 u) a3 (closes_any' (by decide) h4 v)⟩
    · obtain ⟨_, _, _, _, u, a1⟩ := ifPart_cross h1 hf i s1 x
      obtain ⟨_, v, a4⟩ := body_mv ι.μ h3 u
      exact ⟨_, _, .ifElse a1 (opens_mv ι.μ (by decide) Carry.argNone h2 u) a4 (closes_any' (by decide) h4 v)⟩
  | .try_ h1 h2, hf, i, hs, x => by
    have s1 := closes_suf' i.to (tryPart_suf h1) h2 hs
    obtain ⟨_, _, _, u, a1⟩ := tryPart_cross h1 hf i s1 x
    exact ⟨_, _, .try_ a1 (closes_any' (by decide) h2 u)⟩
  | .tryFinally (r1 := r1) h1 h2 h3 h4, hf, i, hs, x => by
    have s2 := opens_suf (fun h => by cases h; exact List.suffix_refl _) h2
    have s3 := closes_suf' i.to (((body_order h3).suffix.trans s2).trans (tryPart_suf h1)) h4 hs
    rcases suf i.to (tryPart_suf h1) with i1 | s1
    · obtain ⟨_, _, a1⟩ := Carry.tryPart no_names h1 i i1 (fun _ _ _ h => by cases h) (Carry.adds_nil _)
      obtain ⟨_, _, _, u, a1⟩ := tryPart_any a1 x
      obtain ⟨t2, _, _, a2⟩ := Carry.opens no_names (by low) Carry.argNone i1 h2 (Carry.adds_nil _)
      obtain ⟨b', hb, hf1⟩ := front_tryPart h1 hf
      obtain ⟨_, v, a3⟩ := cross_to t2 h3 (fun i2 => body_cross h3 (.finally_ hf1 hb h2) i2 s3) u
      exact ⟨_, _, .tryFinally a1 (opens_any (by decide) a2 u) a3 (closes_any' (by decide) h4 v)⟩
    · obtain ⟨_, _, _, u, a1⟩ := tryPart_cross h1 hf i s1 x
      obtain ⟨_, v, a4⟩ := body_mv ι.μ h3 u
      exact ⟨_, _, .tryFinally a1 (opens_mv ι.μ (by decide) Carry.argNone h2 u) a4 (closes_any' (by decide) h4 v)⟩

theorem ifPart_cross {cx b used r ea ss y eis used' r'} : IfPart nv E fn cx used r ea ss y eis used' r' →
    Front nv E fn cx b used r → ι.κ.In r → r' <:+ ι.κ.q0 → ∀ usedX,
    ∃ eaX ssX xX eisX usedX', IfPart nv env' fn cx usedX (ι.κ.tr r) eaX ssX xX eisX usedX' (ι.μ.tr r')
  | .if_ h1 h2, hf, i, hs, x => by
    obtain ⟨t1, _, _, a1⟩ := Carry.opens no_names (by low) Carry.argGram i h1 (Carry.adds_nil _)
    obtain ⟨_, u, a2⟩ := cross_to t1 h2 (fun i1 => body_cross h2 (.if_ hf h1) i1 hs) x
    exact ⟨_, _, _, _, _, .if_ (opens_any (by decide) a1 x) a2⟩
  | .elseif h1 h2 h3, hf, i, hs, x => by
    rcases suf i.to (ifPart_suf h1) with i1 | s1
    · obtain ⟨_, _, a1⟩ := Carry.ifPart no_names h1 i i1 (fun _ _ _ h => by cases h) (Carry.adds_nil _)
      obtain ⟨_, _, _, _, u, a1⟩ := ifPart_any a1 x
      obtain ⟨t2, _, _, a2⟩ := Carry.opens no_names (by low) Carry.argGram i1 h2 (Carry.adds_nil _)
      obtain ⟨b', hb, hf1⟩ := front_ifPart h1 hf
      obtain ⟨_, v, a3⟩ := cross_to t2 h3 (fun i2 => body_cross h3 (.elseif hf1 hb h2) i2 hs) u
      exact ⟨_, _, _, _, _, .elseif a1 (opens_any (by decide) a2 u) a3⟩
    · obtain ⟨_, _, _, _, u, a1⟩ := ifPart_cross h1 hf i s1 x
      obtain ⟨_, v, a4⟩ := body_mv ι.μ h3 u
      exact ⟨_, _, _, _, _, .elseif a1 (opens_mv ι.μ (by decide) Carry.argGram h2 u) a4⟩

theorem tryPart_cross {cx b used r ea ss cs used' r'} : TryPart nv E fn cx used r ea ss cs used' r' →
    Front nv E fn cx b used r → ι.κ.In r → r' <:+ ι.κ.q0 → ∀ usedX,
    ∃ eaX ssX csX usedX', TryPart nv env' fn cx usedX (ι.κ.tr r) eaX ssX csX usedX' (ι.μ.tr r')
  | .try_ h1 h2, hf, i, hs, x => by
    obtain ⟨t1, _, _, a1⟩ := Carry.opens no_names (by low) Carry.argNone i h1 (Carry.adds_nil _)
    obtain ⟨_, u, a2⟩ := cross_to t1 h2 (fun i1 => body_cross h2 (.try_ hf h1) i1 hs) x
    exact ⟨_, _, _, _, .try_ (opens_any (by decide) a1 x) a2⟩
  | .catch_ h1 h2 h3, hf, i, hs, x => by
    rcases suf i.to (tryPart_suf h1) with i1 | s1
    · obtain ⟨_, _, a1⟩ := Carry.tryPart no_names h1 i i1 (fun _ _ _ h => by cases h) (Carry.adds_nil _)
      obtain ⟨_, _, _, u, a1⟩ := tryPart_any a1 x
      obtain ⟨t2, _, _, a2⟩ := Carry.opens no_names (by low) Carry.argCatch i1 h2 (Carry.adds_nil _)
      obtain ⟨b', hb, hf1⟩ := front_tryPart h1 hf
      obtain ⟨_, v, a3⟩ := cross_to t2 h3 (fun i2 => body_cross h3 (.catch_ hf1 hb h2) i2 hs) u
      exact ⟨_, _, _, _, .catch_ a1 (opens_any (by decide) a2 u) a3⟩
    · obtain ⟨_, _, _, u, a1⟩ := tryPart_cross h1 hf i s1 x
      obtain ⟨_, v, a4⟩ := body_mv ι.μ h3 u
      exact ⟨_, _, _, _, .catch_ a1 (opens_mv ι.μ (by decide) Carry.argCatch h2 u) a4⟩

end

/-! ### Correct lines -/

theorem front_here (h : Front nv E fn cx b used ι.κ.q0) : ∃ usedX, Front nv env' fn cx b usedX (ι.μ.tr ι.κ.q0) := by
  obtain ⟨x, h1⟩ := front_before h (.inr rfl)
  rw [Carry.tr_end] at h1
  obtain ⟨_, y, h2⟩ := new_any ι cx x
  exact ⟨y, .lines h1 h2⟩

theorem front_behind_of (h : Front nv E fn cx b used r) (hs : r <:+ ι.κ.q0)
    (ih : r <:+ ι.κ.q0 → r ≠ ι.κ.q0 → ∃ usedX, Front nv env' fn cx b usedX (ι.μ.tr r)) :
    ∃ usedX, Front nv env' fn cx b usedX (ι.μ.tr r) := by
  by_cases hq : r = ι.κ.q0
  · subst hq
    exact front_here h
  · exact ih hs hq

theorem front_behind' (h : Front nv E fn cx b used r) : r <:+ ι.κ.q0 → r ≠ ι.κ.q0 →
    ∃ usedX, Front nv env' fn cx b usedX (ι.μ.tr r) := by
  induction h with
  | start => exact fun hs hq => absurd (at_end ι.start hs) hq
  | lines h0 h1 ih =>
    intro hs hq
    rcases suf ι.start (front_suffix h0) with i | s
    · obtain ⟨x, h2⟩ := front_before h0 i.to
      obtain ⟨_, y, h3⟩ := body_cross h1 h0 i hs x
      exact ⟨y, .lines h2 h3⟩
    · obtain ⟨x, ih⟩ := front_behind_of h0 s ih
      obtain ⟨_, y, h2⟩ := body_mv ι.μ h1 x
      exact ⟨y, .lines ih h2⟩
  | function h0 h1 ih =>
    intro hs hq
    rcases suf ι.start (front_suffix h0) with i | s
    · exact absurd (at_end (Carry.opens no_names (by low) Carry.argFunc i h1 (Carry.adds_nil _)).1 hs) hq
    · obtain ⟨x, ih⟩ := front_behind_of h0 s ih
      exact ⟨x, .function ih (opens_mv ι.μ (by decide) Carry.argFunc h1 x)⟩
  | while_ h0 h1 ih =>
    intro hs hq
    rcases suf ι.start (front_suffix h0) with i | s
    · exact absurd (at_end (Carry.opens no_names (by low) Carry.argGram i h1 (Carry.adds_nil _)).1 hs) hq
    · obtain ⟨x, ih⟩ := front_behind_of h0 s ih
      exact ⟨x, .while_ ih (opens_mv ι.μ (by decide) Carry.argGram h1 x)⟩
  | for_ h0 h1 ih =>
    intro hs hq
    rcases suf ι.start (front_suffix h0) with i | s
    · exact absurd (at_end (Carry.opens no_names (by low) Carry.argFor i h1 (Carry.adds_nil _)).1 hs) hq
    · obtain ⟨x, ih⟩ := front_behind_of h0 s ih
      exact ⟨x, .for_ ih (opens_mv ι.μ (by decide) Carry.argFor h1 x)⟩
  | if_ h0 h1 ih =>
    intro hs hq
    rcases suf ι.start (front_suffix h0) with i | s
    · exact absurd (at_end (Carry.opens no_names (by low) Carry.argGram i h1 (Carry.adds_nil _)).1 hs) hq
    · obtain ⟨x, ih⟩ := front_behind_of h0 s ih
      exact ⟨x, .if_ ih (opens_mv ι.μ (by decide) Carry.argGram h1 x)⟩
  | try_ h0 h1 ih =>
    intro hs hq
    rcases suf ι.start (front_suffix h0) with i | s
    · exact absurd (at_end (Carry.opens no_names (by low) Carry.argNone i h1 (Carry.adds_nil _)).1 hs) hq
    · obtain ⟨x, ih⟩ := front_behind_of h0 s ih
      exact ⟨x, .try_ ih (opens_mv ι.μ (by decide) Carry.argNone h1 x)⟩
  | elseif h0 hb h1 ih =>
    intro hs hq
    rcases suf ι.start (front_suffix h0) with i | s
    · exact absurd (at_end (Carry.opens no_names (by low) Carry.argGram i h1 (Carry.adds_nil _)).1 hs) hq
    · obtain ⟨x, ih⟩ := front_behind_of h0 s ih
      exact ⟨x, .elseif ih hb (opens_mv ι.μ (by decide) Carry.argGram h1 x)⟩
  | else_ h0 hb h1 ih =>
    intro hs hq
    rcases suf ι.start (front_suffix h0) with i | s
    · exact absurd (at_end (Carry.opens no_names (by low) Carry.argNone i h1 (Carry.adds_nil _)).1 hs) hq
    · obtain ⟨x, ih⟩ := front_behind_of h0 s ih
      exact ⟨x, .else_ ih hb (opens_mv ι.μ (by decide) Carry.argNone h1 x)⟩
  | catch_ h0 hb h1 ih =>
    intro hs hq
    rcases suf ι.start (front_suffix h0) with i | s
    · exact absurd (at_end (Carry.opens no_names (by low) Carry.argCatch i h1 (Carry.adds_nil _)).1 hs) hq
    · obtain ⟨x, ih⟩ := front_behind_of h0 s ih
      exact ⟨x, .catch_ ih hb (opens_mv ι.μ (by decide) Carry.argCatch h1 x)⟩
  | finally_ h0 hb h1 ih =>
    intro hs hq
    rcases suf ι.start (front_suffix h0) with i | s
    · exact absurd (at_end (Carry.opens no_names (by low) Carry.argNone i h1 (Carry.adds_nil _)).1 hs) hq
    · obtain ⟨x, ih⟩ := front_behind_of h0 s ih
      exact ⟨x, .finally_ ih hb (opens_mv ι.μ (by decide) Carry.argNone h1 x)⟩

theorem front_behind (h : Front nv E fn cx b used r) (hs : r <:+ ι.κ.q0) : ∃ usedX, Front nv env' fn cx b usedX (ι.μ.tr r) :=
  front_behind_of h hs (front_behind' h)

/-! ### Files -/

theorem fileErr {m : Str} {q : Pos} (h : FileErr nv E fn m q) : FileErr nv env' fn m (ι.μ.mp q) := by
  cases h with
  | line h1 h2 =>
    obtain ⟨x, h3⟩ := front_behind h1 (front_lineErr h1 h2 ι.front)
    exact .line h3 (lineErr_any (lineErr_mv ι.μ (Names.refl _) h2) x)
  | unclosed h1 h2 =>
    obtain ⟨x, h3⟩ := front_behind (ι := ι) h1 List.nil_suffix
    rw [Mover.nil] at h3
    rw [← Mover.eof]
    exact .unclosed h3 h2

theorem fileErr_at {m : Str} {q : Pos} (h : FileErr nv E fn m q) : At E ι.κ.q0 q := by
  cases h with
  | line h1 h2 => exact lineErr_at (front_lineErr h1 h2 ι.front) h2
  | unclosed h1 h2 => exact ⟨[], List.nil_suffix, rfl⟩

theorem numErr (ι : Inserted nv lines env' fn) (h : NumErr nv E fn) : NumErr nv env' fn := by
  cases h with
  | line h1 h2 =>
    obtain ⟨x, h3⟩ := front_behind h1 (front_lineNum h1 h2 ι.front)
    exact .line h3 (lineNum_any (lineNum_mv ι.μ (Names.refl _) h2) x)

theorem script {f : Ast.File} (h : Script nv E fn f) (hc : ∀ n, UserCmd f.body n → Carry.Okay ι.U n ∧ Fit ι n) :
    ∃ ss, Script nv env' fn ⟨here env' fn env'.buf, ss⟩ ∧ Into ι.ws (L f.body) ss := by
  obtain ⟨used, h1, _⟩ := h
  obtain ⟨x, ss, _, h2, h3⟩ := mid_to ι.start h1 (fun i => body_mid h1 .start i List.nil_suffix)
    ⟨fun _ h => (by cases h), hc⟩ [] (Carry.adds_nil _)
  rw [Mover.nil, ι.buf] at h2
  exact ⟨ss, ⟨x, h2, rfl⟩, h3⟩

/-- Whatever the names are, the file is accepted. -/
theorem script_any (ι : Inserted nv lines env' fn) {f : Ast.File} (h : Script nv E fn f) :
    ∃ ss, Script nv env' fn ⟨here env' fn env'.buf, ss⟩ := by
  obtain ⟨used, h1, _⟩ := h
  obtain ⟨ss, x, h2⟩ := cross_to ι.start h1 (fun i => body_cross h1 .start i List.nil_suffix) []
  rw [Mover.nil, ι.buf] at h2
  exact ⟨ss, x, h2, rfl⟩

end Inserted
end Viml
