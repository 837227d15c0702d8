/-
Blocks and scripts are carried over to another place.
-/
import Verif.Lemmas.CarryFile

namespace Viml
open Spec

/-! ### User commands of a tree -/

theorem Spec.PartS.mono {a b : List Ast.Stmt} {x : Ast.Stmt} (h : PartS a x) (hs : ∀ s ∈ a, s ∈ b) : PartS b x := by
  cases h with
  | mem h => exact .mem (hs _ h)
  | sub h1 h2 => exact .sub (hs _ h1) h2

theorem Spec.UserCmd.mono {a b : List Ast.Stmt} {n : Str} (h : UserCmd a n) (hs : ∀ s ∈ a, s ∈ b) : UserCmd b n := by
  obtain ⟨x, ea, h1, h2⟩ := h
  exact ⟨x, ea, Spec.PartS.mono h1 hs, h2⟩

theorem Spec.UserCmd.sub {a : List Ast.Stmt} {s : Ast.Stmt} {n : Str} (h : UserCmd a n) (hs : ∀ x ∈ a, x ∈ subStmts s) :
    UserCmd [s] n := by
  obtain ⟨x, ea, h1, h2⟩ := h
  exact ⟨x, ea, .sub (List.mem_singleton.2 rfl) (Spec.PartS.mono h1 hs), h2⟩

theorem mem_else {q ea b c eis s e} : s ∈ subStmts (.if_ q ea b c eis (some s) e) := by simp [subStmts]
theorem mem_finally {q ea b cs s e} : s ∈ subStmts (.try_ q ea b cs (some s) e) := by simp [subStmts]
theorem mem_last {a b : List Ast.Stmt} {s : Ast.Stmt} : s ∈ a ++ (b ++ [s]) := by simp

theorem options_cmd {c : Cmd} {a b : Ast.ExArg} {r r'} (h : Options c a r b r') : b.cmd = a.cmd := by
  obtain ⟨e1, r1, e2, r2, e3, r3, e4, r4, h1, h2, h3, h4, h5⟩ := h
  have g1 : e1.cmd = a.cmd := by
    rcases h1 with ⟨_, h⟩ | ⟨_, rfl, _⟩
    · clear h2
      induction h with
      | nil => rfl
      | cons h _ _ ih => cases h <;> exact ih
    · rfl
  have g2 : e2.cmd = e1.cmd := by cases h2 <;> rfl
  have g3 : e3.cmd = e2.cmd := by cases h3 <;> rfl
  have g4 : e4.cmd = e3.cmd := by cases h4 <;> rfl
  have g5 : b.cmd = e4.cmd := by
    rcases h5 with ⟨_, h⟩ | ⟨_, rfl, _⟩
    · cases h <;> rfl
    · rfl
  simp [g1, g2, g3, g4, g5]

theorem head_cmd {nv env fn used used' r r0 ea c ra r'} (h : CmdHead nv env fn used r r0 ea c ra r' used') :
    ea.cmd = some c := by
  obtain ⟨ms, rg, rc, r1, b, r2, h1, h2, h3, h4, h5, h6, h7⟩ := h.ex
  rw [options_cmd h7]

theorem simple_cmd {env fn cx r0 ra ea c r xs r'} (h : Spec.Simple env fn cx r0 ra ea c r xs r') :
    ∃ x ∈ xs, exArgOf x = some ea := by
  cases h <;> first
    | exact ⟨_, List.mem_singleton.2 rfl, rfl⟩
    | exact ⟨_, List.mem_append_right _ (List.mem_singleton.2 rfl), rfl⟩

/-- The names after a command are those before and that of the command. -/
theorem cmdName_used {nv used r c r' used' x} (h : CmdName nv used r c r' used') (hx : x ∈ used') :
    x ∈ used ∨ c = userCommand x ∧ Upper x := by
  cases h with
  | table => exact .inl hx
  | again => exact .inl hx
  | user h1 h2 _ _ =>
    rcases List.mem_cons.1 hx with rfl | hx
    · obtain ⟨⟨c, s, rfl, h⟩, _⟩ := h2
      exact .inr ⟨rfl, c, _, rfl, h⟩
    · exact .inl hx

theorem head_used {nv env fn used used' r r0 ea c ra r' x} (h : CmdHead nv env fn used r r0 ea c ra r' used')
    (hx : x ∈ used') : x ∈ used ∨ c = userCommand x ∧ Upper x := by
  obtain ⟨ms, rg, rc, r1, b, r2, h1, h2, h3, h4, h5, h6, h7⟩ := h.ex
  exact cmdName_used h4 hx

/-- Names of commands of the parser. -/
def Low (n : Str) : Prop := ∀ c s, n = c :: s → ¬ ('A' ≤ c ∧ c ≤ 'Z')

theorem low_of {c : Char} {s : Str} (h : ¬ ('A' ≤ c ∧ c ≤ 'Z')) : Low (c :: s) := by
  intro d t e
  cases e
  exact h

theorem Low.not {n : Str} (h : Low n) : ¬ Upper n := fun ⟨c, s, e, h1⟩ => h c s e h1

theorem opens_used {nv env fn α n used r ea a cm used' r' x} {A : List Cell → α → List Cell → Prop}
    (h : Spec.Opens nv env fn n A used r ea a cm used' r') (hl : Low n) (hx : x ∈ used') : x ∈ used := by
  obtain ⟨r0, c, ra, r1, r2, rfl, h1, _⟩ := h
  rcases head_used h1 hx with h | ⟨rfl, h⟩
  · exact h
  · exact absurd h hl.not

theorem closes_used {nv env fn n used r e used' r' x} (h : Closes nv env fn n used r e used' r') (hl : Low n)
    (hx : x ∈ used') : x ∈ used := by
  obtain ⟨r0, ea, c, ra, r1, rfl, h1, _⟩ := h
  rcases head_used h1 hx with h | ⟨rfl, h⟩
  · exact h
  · exact absurd h hl.not

macro "low" : tactic => `(tactic| exact low_of (by decide))



section
variable {nv : Bool} {env : Env} {fn : Str} {x : Str}

mutual

/-- The names after a script are names of its user commands. -/
theorem body_used {cx used r ss used' r'} : Body nv env fn cx used r ss used' r' → x ∈ used' →
    x ∈ used ∨ Upper x ∧ UserCmd ss x
  | .nil, hx => .inl hx
  | .shebang h .., hx => body_used h hx
  | .empty h .., hx => body_used h hx
  | .comment h .., hx => (body_used h hx).imp id fun h => ⟨h.1, h.2.mono fun _ h => List.mem_append_left _ h⟩
  | .noCommand h .., hx => (body_used h hx).imp id fun h =>
      ⟨h.1, h.2.mono fun _ h => List.mem_append_left _ (List.mem_append_left _ h)⟩
  | .simple h h1 h2 _, hx => by
    rcases head_used h1 hx with hx | ⟨rfl, hx⟩
    · exact (body_used h hx).imp id fun h => ⟨h.1, h.2.mono fun _ h => List.mem_append_left _ (List.mem_append_left _ h)⟩
    · obtain ⟨y, hy, e⟩ := simple_cmd h2
      exact .inr ⟨hx, y, _, .mem (List.mem_append_left _ (List.mem_append_right _ hy)), e, head_cmd h1⟩
  | .block h h1 _, hx => by
    rcases block_used h1 hx with hx | ⟨hx, h1⟩
    · exact (body_used h hx).imp id fun h => ⟨h.1, h.2.mono fun _ h => List.mem_append_left _ (List.mem_append_left _ h)⟩
    · exact .inr ⟨hx, h1.mono fun _ h => List.mem_append_left _ (List.mem_append_right _ h)⟩

theorem block_used {cx used r s used' r'} : Block nv env fn cx used r s used' r' → x ∈ used' →
    x ∈ used ∨ Upper x ∧ UserCmd [s] x
  | .function h1 h2 h3, hx | .while_ h1 h2 h3, hx | .for_ h1 h2 h3, hx => by
    rcases body_used h2 (closes_used h3 (by low) hx) with hx | ⟨hu, hx⟩
    · exact .inl (opens_used h1 (by low) hx)
    · exact .inr ⟨hu, hx.sub fun x hx => by simp [subStmts, hx]⟩
  | .if_ h1 h2, hx => by
    rcases ifPart_used h1 (closes_used h2 (by low) hx) with hx | ⟨hu, hx⟩
    · exact .inl hx
    · exact .inr ⟨hu, hx.sub fun x hx => by simpa [subStmts] using hx⟩
  | .ifElse h1 h2 h3 h4, hx => by
    rcases body_used h3 (closes_used h4 (by low) hx) with hx | ⟨hu, hx⟩
    · rcases ifPart_used h1 (opens_used h2 (by low) hx) with hx | ⟨hu, hx⟩
      · exact .inl hx
      · exact .inr ⟨hu, hx.sub fun x hx => by
          simp only [subStmts, List.mem_append] at hx ⊢
          exact .inl hx⟩
    · refine .inr ⟨hu, ?_⟩
      obtain ⟨y, ea, h1, h2⟩ := hx
      refine ⟨y, ea, ?_, h2⟩
      exact .sub (List.mem_singleton.2 rfl) (.sub mem_else
        (Spec.PartS.mono h1 fun x hx => by simp [subStmts, hx]))
  | .try_ h1 h2, hx => by
    rcases tryPart_used h1 (closes_used h2 (by low) hx) with hx | ⟨hu, hx⟩
    · exact .inl hx
    · exact .inr ⟨hu, hx.sub fun x hx => by simpa [subStmts] using hx⟩
  | .tryFinally h1 h2 h3 h4, hx => by
    rcases body_used h3 (closes_used h4 (by low) hx) with hx | ⟨hu, hx⟩
    · rcases tryPart_used h1 (opens_used h2 (by low) hx) with hx | ⟨hu, hx⟩
      · exact .inl hx
      · exact .inr ⟨hu, hx.sub fun x hx => by
          simp only [subStmts, List.mem_append] at hx ⊢
          exact .inl hx⟩
    · refine .inr ⟨hu, ?_⟩
      obtain ⟨y, ea, h1, h2⟩ := hx
      refine ⟨y, ea, ?_, h2⟩
      exact .sub (List.mem_singleton.2 rfl) (.sub mem_finally
        (Spec.PartS.mono h1 fun x hx => by simp [subStmts, hx]))

theorem ifPart_used {cx used r ea ss y eis used' r'} : IfPart nv env fn cx used r ea ss y eis used' r' → x ∈ used' →
    x ∈ used ∨ Upper x ∧ UserCmd (ss ++ eis) x
  | .if_ h1 h2, hx => by
    rcases body_used h2 hx with hx | ⟨hu, hx⟩
    · exact .inl (opens_used h1 (by low) hx)
    · exact .inr ⟨hu, hx.mono fun x hx => by simp [hx]⟩
  | .elseif h1 h2 h3, hx => by
    rcases body_used h3 hx with hx | ⟨hu, hx⟩
    · exact (ifPart_used h1 (opens_used h2 (by low) hx)).imp id fun h => ⟨h.1, h.2.mono fun x hx => by
        simp only [List.mem_append] at hx ⊢
        exact hx.imp id .inl⟩
    · refine .inr ⟨hu, ?_⟩
      obtain ⟨y, ea, h1, h2⟩ := hx
      exact ⟨y, ea, .sub mem_last (Spec.PartS.mono h1 fun x hx => by simp [subStmts, hx]), h2⟩

theorem tryPart_used {cx used r ea ss cs used' r'} : TryPart nv env fn cx used r ea ss cs used' r' → x ∈ used' →
    x ∈ used ∨ Upper x ∧ UserCmd (ss ++ cs) x
  | .try_ h1 h2, hx => by
    rcases body_used h2 hx with hx | ⟨hu, hx⟩
    · exact .inl (opens_used h1 (by low) hx)
    · exact .inr ⟨hu, hx.mono fun x hx => by simp [hx]⟩
  | .catch_ h1 h2 h3, hx => by
    rcases body_used h3 hx with hx | ⟨hu, hx⟩
    · exact (tryPart_used h1 (opens_used h2 (by low) hx)).imp id fun h => ⟨h.1, h.2.mono fun x hx => by
        simp only [List.mem_append] at hx ⊢
        exact hx.imp id .inl⟩
    · refine .inr ⟨hu, ?_⟩
      obtain ⟨y, ea, h1, h2⟩ := hx
      exact ⟨y, ea, .sub mem_last (Spec.PartS.mono h1 fun x hx => by simp [subStmts, hx]), h2⟩

end

end

/-! ### Suffixes -/

section
variable {nv : Bool} {env : Env} {fn : Str}

theorem opens_suf {α : Type} {n} {A : List Cell → α → List Cell → Prop} {used r ea a cm used' r'}
    (hA : ∀ {r a r'}, A r a r' → r' <:+ r) (h : Spec.Opens nv env fn n A used r ea a cm used' r') : r' <:+ r := by
  obtain ⟨r0, c, ra, r1, r2, _, h1, h2, h3⟩ := h
  obtain ⟨a1, a2, a3⟩ := head_track h1
  exact (((trail_order h3).suffix.trans (hA h2)).trans a2.suffix).trans a3.suffix

theorem closes_suf {n used r e used' r'} (h : Closes nv env fn n used r e used' r') : r' <:+ r := (closes_track h).suffix

theorem ifPart_suf {cx used r ea ss x eis used' r'} (h : IfPart nv env fn cx used r ea ss x eis used' r') : r' <:+ r := by
  obtain ⟨rx, t1, t2, t3⟩ := ifPart_order h
  exact t3.suffix.trans t1.suffix

theorem tryPart_suf {cx used r ea ss cs used' r'} (h : TryPart nv env fn cx used r ea ss cs used' r') : r' <:+ r := by
  obtain ⟨rx, t1, t3⟩ := tryPart_order h
  exact t3.suffix.trans t1.suffix

end

namespace Carry
variable {nv : Bool} {env env' : Env} {fn : Str} {κ : Carry env env' fn} {r r' : List Cell} {U : List Str}

/-- `n` is no name of `U` with something added. -/
def Okay (U : List Str) (n : Str) : Prop := ∀ a ∈ U, ∀ b, b ≠ [] → n ≠ a ++ b

theorem free_low {c : Cmd} (hU : ∀ a ∈ U, Upper a) (hl : Low c.name) : Free U c := by
  rintro a ha b _ rfl
  obtain ⟨x, s, rfl, h⟩ := hU a ha
  exact hl x (s ++ b) rfl h

/-- Arguments `A` are carried to `A'`. -/
def Argument (κ : Carry env env' fn) {α : Type} (A A' : List Cell → α → List Cell → Prop) (g : α → α) : Prop :=
  ∀ r a r', κ.In r → A r a r' → κ.In r' ∧ A' (κ.tr r) (g a) (κ.tr r')

theorem opens {α : Type} {n : Str} {A A' : List Cell → α → List Cell → Prop} {g : α → α} {used used' usedX : List Str}
    {ea : Ast.ExArg} {a : α} {cm : List Ast.Stmt} (hU : ∀ a ∈ U, Upper a) (hl : Low n) (hA : Argument κ A A' g)
    (h : κ.In r) (ho : Spec.Opens nv env fn n A used r ea a cm used' r') (hu : Adds U used usedX) :
    κ.To r' ∧ ∃ usedX', Adds U used' usedX' ∧
      Spec.Opens nv env' fn n A' usedX (κ.tr r) (ea.onPos κ.m) (g a) (Ast.Stmt.onPosL κ.m cm) usedX' (κ.tr r') := by
  obtain ⟨r0, c, ra, r1, r2, rfl, h1, h2, h3⟩ := ho
  obtain ⟨i0, ia, i1, usedX', hu', a1⟩ := cmdHead h hu (free_low hU hl) h1
  obtain ⟨i2, a2⟩ := hA _ _ _ i1 h2
  obtain ⟨t, a3⟩ := trail i2 h3
  exact ⟨t, usedX', hu', _, _, _, _, _, rfl, a1, a2, a3⟩

theorem closes {n : Str} {used used' usedX : List Str} {e : Ast.EndCmd} (hU : ∀ a ∈ U, Upper a) (hl : Low n)
    (h : κ.In r) (ho : Closes nv env fn n used r e used' r') (hu : Adds U used usedX) :
    ∃ usedX', Adds U used' usedX' ∧ Closes nv env' fn n usedX (κ.tr r) (e.onPos κ.m) usedX' (κ.tr r') := by
  obtain ⟨r0, ea, c, ra, r1, rfl, h1, rfl, h3⟩ := ho
  obtain ⟨i0, ia, i1, usedX', hu', a1⟩ := cmdHead h hu (free_low hU hl) h1
  refine ⟨usedX', hu', _, _, _, _, _, rfl, a1, rfl, ?_⟩
  split at h3
  · rename_i hn
    obtain ⟨l, h3⟩ := h3
    rw [if_pos hn]
    exact ⟨l, (rest i1 h3).2⟩
  · rename_i hn
    rw [if_neg hn, h3]

theorem argGram : Argument κ (Gram env fn 1) (Gram env' fn 1) (Ast.Expr.onPos κ.m) := fun _ _ _ i h => gram h i

theorem argNone : Argument κ NoArgs NoArgs id := fun _ _ _ i h => by
  cases h
  exact ⟨i, rfl⟩

theorem argCatch : Argument κ CatchArg CatchArg id := fun _ _ _ i h => by
  cases h with
  | none h1 h2 =>
    obtain ⟨i, a⟩ := skip i h1
    exact ⟨i, .none a ((atStop i).2 h2)⟩
  | pat h1 h2 h3 h4 =>
    obtain ⟨i, a⟩ := skip i h1
    obtain ⟨i2, a2⟩ := reads i h3
    obtain ⟨i3, a3⟩ := Carry.pat h4 i2
    exact ⟨i3, .pat a (by rw [atStop i]; exact h2) a2 a3⟩

theorem argFor : Argument κ (ForArgs env fn) (ForArgs env' fn)
    (fun a => (Ast.Expr.onPosO κ.m a.1, Ast.Expr.onPosL κ.m a.2.1, Ast.Expr.onPosO κ.m a.2.2.1, a.2.2.2.onPos κ.m)) :=
  fun _ _ _ i h => by
  cases h with
  | mk h1 h2 h3 h4 =>
    obtain ⟨i, a⟩ := lhsAt (S' := Target env' fn) (fun h ht => target_ h ht) i h1
    obtain ⟨i2, a2⟩ := skip i h2
    obtain ⟨i3, a3⟩ := span i2 h3
    obtain ⟨i4, a4⟩ := gram h4 i3
    exact ⟨i4, .mk a a2 a3 a4⟩

theorem argFunc : Argument κ (FuncArgs env fn) (FuncArgs env' fn)
    (fun a => (a.1.onPos κ.m, a.2.1.map (Ast.Ident.onPos κ.m), Ast.Expr.onPosL κ.m a.2.2.1, a.2.2.2)) :=
  fun _ _ _ i h => funcHead i h

theorem catch_suf {p : Str} (h : CatchArg r p r') : r' <:+ r := by
  cases h with
  | none h => exact h.adv.suffix
  | pat h _ h1 h2 => exact (h2.adv.suffix.trans h1.suf).trans h.adv.suffix

theorem gram_suf {k : Nat} {e : Ast.Expr} (h : Gram env fn k r e r') : r' <:+ r := (gram_track (s := true) h).suffix

mutual

theorem body (hU : ∀ a ∈ U, Upper a) {cx used r ss used' r'} : Body nv env fn cx used r ss used' r' → κ.To r → κ.Up r' →
    (∀ n, UserCmd ss n → Okay U n) → ∀ {usedX}, Adds U used usedX → ∃ usedX', Adds U used' usedX' ∧
      Body nv env' fn cx usedX (κ.tr r) (Ast.Stmt.onPosL κ.m ss) usedX' (κ.tr r')
  | .nil, _, _, _, usedX, hu => ⟨usedX, hu, .nil⟩
  | .shebang h h1 h2 h3, t, t', hc, _, hu => by
    have i := t.line (body_order h).suffix t' (.inl (line_lt h2).2)
    obtain ⟨usedX', hu', a⟩ := body hU h t i.up hc hu
    obtain ⟨i2, a2⟩ := reads i h2
    obtain ⟨_, e, he⟩ := end_ i2 h3
    exact ⟨usedX', hu', .shebang a ((starts i _).2 h1) (e ▸ a2) he⟩
  | .empty h h2 h3, t, t', hc, _, hu => by
    have i := t.line (body_order h).suffix t' (.inl (line_lt h2.choose_spec.1).2)
    obtain ⟨usedX', hu', a⟩ := body hU h t i.up hc hu
    obtain ⟨i2, a2⟩ := skipC i h2
    obtain ⟨_, e, he⟩ := end_ i2 h3
    exact ⟨usedX', hu', .empty a (e ▸ a2) he⟩
  | .comment h h2 h3, t, t', hc, _, hu => by
    have i : κ.In _ := t.line (body_order h).suffix t' (.inl (by
      cases h3 with
      | mk h3 h4 h5 =>
        exact Nat.lt_of_lt_of_le (line_lt h4).2 ((suf h3).trans h2.adv.suffix).length_le))
    obtain ⟨usedX', hu', a⟩ := body hU h t i.up (fun n hn => hc n (hn.mono fun _ h => List.mem_append_left _ h)) hu
    obtain ⟨i2, a2⟩ := skipC i h2
    obtain ⟨_, a3⟩ := Carry.comment i2 h3
    refine ⟨usedX', hu', ?_⟩
    rw [onPosS_append]
    exact .comment a a2 a3
  | .noCommand (ms := ms) (rg := rg) h h1 h2 h3 h4, t, t', hc, _, hu => by
    have i : κ.In _ := t.line (body_order h).suffix t' ((trail_len h4).imp (fun hl =>
      Nat.lt_of_lt_of_le hl (h1.adv.suffix.trans h1.2.1.adv.suffix).length_le) id)
    obtain ⟨usedX', hu', a⟩ := body hU h t i.up
      (fun n hn => hc n (hn.mono fun _ h => List.mem_append_left _ (List.mem_append_left _ h))) hu
    obtain ⟨i0, ic, a1⟩ := before i h1
    have a3 := (reads i0 h3).2
    obtain ⟨_, a4⟩ := trail ic h4
    refine ⟨usedX', hu', ?_⟩
    have := Body.noCommand a a1 (by rw [atEnd ic, head ic]; exact h2) a3 a4
    rw [onPosS_append, onPosS_append]
    by_cases hm : ms = [] ∧ rg = []
    · rw [if_pos hm] at this ⊢
      exact this
    · rw [if_neg hm] at this ⊢
      rw [Carry.here i0, Carry.here ic] at this
      exact this
  | .simple (c := c) h h1 h2 h3, t, t', hc, _, hu => by
    have s3 := (simple_order h1 h2).suffix
    have i : κ.In _ := t.line (body_order h).suffix t' ((trail_len h3).imp (fun hl => Nat.lt_of_lt_of_le hl s3.length_le) id)
    obtain ⟨usedX', hu', a⟩ := body hU h t i.up
      (fun n hn => hc n (hn.mono fun _ h => List.mem_append_left _ (List.mem_append_left _ h))) hu
    have hf : Free U c := by
      rintro p hp b hb rfl
      obtain ⟨y, hy, e⟩ := simple_cmd h2
      exact hc (p ++ b) ⟨y, _, .mem (List.mem_append_left _ (List.mem_append_right _ hy)), e, head_cmd h1⟩ p hp b hb rfl
    obtain ⟨i0, ia, i1, usedX2, hu2, a1⟩ := cmdHead i hu' hf h1
    have i3 : κ.In _ := i.to.line s3 t' (trail_len h3)
    have a2 := simple i0 ia i1 i3 h2
    obtain ⟨_, a3⟩ := trail i3 h3
    refine ⟨usedX2, hu2, ?_⟩
    rw [onPosS_append, onPosS_append]
    exact .simple a a1 a2 a3
  | .block h h1 h2, t, t', hc, _, hu => by
    have s3 := (block_order h1).suffix
    have i : κ.In _ := t.line (body_order h).suffix t' ((trail_len h2).imp (fun hl => Nat.lt_of_lt_of_le hl s3.length_le) id)
    have i3 : κ.In _ := i.to.line s3 t' (trail_len h2)
    obtain ⟨usedX', hu', a⟩ := body hU h t i.up
      (fun n hn => hc n (hn.mono fun _ h => List.mem_append_left _ (List.mem_append_left _ h))) hu
    obtain ⟨usedX2, hu2, a2⟩ := block hU h1 i i3
      (fun n hn => hc n (hn.mono fun _ h => List.mem_append_left _ (List.mem_append_right _ h))) hu'
    obtain ⟨_, a3⟩ := trail i3 h2
    refine ⟨usedX2, hu2, ?_⟩
    rw [onPosS_append, onPosS_append]
    exact .block a a2 a3

theorem block (hU : ∀ a ∈ U, Upper a) {cx used r s used' r'} : Block nv env fn cx used r s used' r' → κ.In r → κ.In r' →
    (∀ n, UserCmd [s] n → Okay U n) → ∀ {usedX}, Adds U used usedX → ∃ usedX', Adds U used' usedX' ∧
      Block nv env' fn cx usedX (κ.tr r) (s.onPos κ.m) usedX' (κ.tr r')
  | .function h1 h2 h3, i, i', hc, _, hu => by
    obtain ⟨t1, usedX1, hu1, a1⟩ := opens hU (by low) argFunc i h1 hu
    have i2 := t1.inTo (body_order h2).suffix i' (closes_suf h3)
    obtain ⟨usedX2, hu2, a2⟩ := body hU h2 t1 i2.up (fun n hn => hc n (hn.sub fun x hx => by simp [subStmts, hx])) hu1
    obtain ⟨usedX3, hu3, a3⟩ := closes hU (by low) i2 h3 hu2
    refine ⟨usedX3, hu3, ?_⟩
    rw [Ast.Stmt.onPos, onPosS_append]
    exact .function a1 a2 a3
  | .while_ h1 h2 h3, i, i', hc, _, hu => by
    obtain ⟨t1, usedX1, hu1, a1⟩ := opens hU (by low) argGram i h1 hu
    have i2 := t1.inTo (body_order h2).suffix i' (closes_suf h3)
    obtain ⟨usedX2, hu2, a2⟩ := body hU h2 t1 i2.up (fun n hn => hc n (hn.sub fun x hx => by simp [subStmts, hx])) hu1
    obtain ⟨usedX3, hu3, a3⟩ := closes hU (by low) i2 h3 hu2
    refine ⟨usedX3, hu3, ?_⟩
    rw [Ast.Stmt.onPos, onPosS_append]
    exact .while_ a1 a2 a3
  | .for_ h1 h2 h3, i, i', hc, _, hu => by
    obtain ⟨t1, usedX1, hu1, a1⟩ := opens hU (by low) argFor i h1 hu
    have i2 := t1.inTo (body_order h2).suffix i' (closes_suf h3)
    obtain ⟨usedX2, hu2, a2⟩ := body hU h2 t1 i2.up (fun n hn => hc n (hn.sub fun x hx => by simp [subStmts, hx])) hu1
    obtain ⟨usedX3, hu3, a3⟩ := closes hU (by low) i2 h3 hu2
    refine ⟨usedX3, hu3, ?_⟩
    rw [Ast.Stmt.onPos, onPosS_append]
    exact .for_ a1 a2 a3
  | .if_ h1 h2, i, i', hc, _, hu => by
    have i2 := i.to.inTo (ifPart_suf h1) i' (closes_suf h2)
    obtain ⟨usedX2, hu2, a2⟩ := ifPart hU h1 i i2 (fun n hn => hc n (hn.sub fun x hx => by simpa [subStmts] using hx)) hu
    obtain ⟨usedX3, hu3, a3⟩ := closes hU (by low) i2 h2 hu2
    exact ⟨usedX3, hu3, .if_ a2 a3⟩
  | .ifElse h1 h2 h3 h4, i, i', hc, _, hu => by
    have s2 := (body_order h3).suffix.trans (opens_suf (fun h => by cases h; exact List.suffix_refl _) h2)
    have i2 := i.to.inTo (ifPart_suf h1) i' ((closes_suf h4).trans s2)
    obtain ⟨usedX2, hu2, a2⟩ := ifPart hU h1 i i2 (fun n hn => hc n (hn.sub fun x hx => by
      simp only [subStmts, List.mem_append] at hx ⊢
      exact .inl hx)) hu
    obtain ⟨t3, usedX3, hu3, a3⟩ := opens hU (by low) argNone i2 h2 hu2
    have i3 := t3.inTo (body_order h3).suffix i' (closes_suf h4)
    obtain ⟨usedX4, hu4, a4⟩ := body hU h3 t3 i3.up (fun n hn => hc n (by
      obtain ⟨y, ea, h1, h2⟩ := hn
      exact ⟨y, ea, .sub (List.mem_singleton.2 rfl) (.sub mem_else
        (Spec.PartS.mono h1 fun x hx => by simp [subStmts, hx])), h2⟩)) hu3
    obtain ⟨usedX5, hu5, a5⟩ := closes hU (by low) i3 h4 hu4
    refine ⟨usedX5, hu5, ?_⟩
    rw [Ast.Stmt.onPos, Ast.Stmt.onPosO, Ast.Stmt.onPos, onPosS_append]
    exact .ifElse a2 a3 a4 a5
  | .try_ h1 h2, i, i', hc, _, hu => by
    have i2 := i.to.inTo (tryPart_suf h1) i' (closes_suf h2)
    obtain ⟨usedX2, hu2, a2⟩ := tryPart hU h1 i i2 (fun n hn => hc n (hn.sub fun x hx => by simpa [subStmts] using hx)) hu
    obtain ⟨usedX3, hu3, a3⟩ := closes hU (by low) i2 h2 hu2
    exact ⟨usedX3, hu3, .try_ a2 a3⟩
  | .tryFinally h1 h2 h3 h4, i, i', hc, _, hu => by
    have s2 := (body_order h3).suffix.trans (opens_suf (fun h => by cases h; exact List.suffix_refl _) h2)
    have i2 := i.to.inTo (tryPart_suf h1) i' ((closes_suf h4).trans s2)
    obtain ⟨usedX2, hu2, a2⟩ := tryPart hU h1 i i2 (fun n hn => hc n (hn.sub fun x hx => by
      simp only [subStmts, List.mem_append] at hx ⊢
      exact .inl hx)) hu
    obtain ⟨t3, usedX3, hu3, a3⟩ := opens hU (by low) argNone i2 h2 hu2
    have i3 := t3.inTo (body_order h3).suffix i' (closes_suf h4)
    obtain ⟨usedX4, hu4, a4⟩ := body hU h3 t3 i3.up (fun n hn => hc n (by
      obtain ⟨y, ea, h1, h2⟩ := hn
      exact ⟨y, ea, .sub (List.mem_singleton.2 rfl) (.sub mem_finally
        (Spec.PartS.mono h1 fun x hx => by simp [subStmts, hx])), h2⟩)) hu3
    obtain ⟨usedX5, hu5, a5⟩ := closes hU (by low) i3 h4 hu4
    refine ⟨usedX5, hu5, ?_⟩
    rw [Ast.Stmt.onPos, Ast.Stmt.onPosO, Ast.Stmt.onPos, onPosS_append]
    exact .tryFinally a2 a3 a4 a5

theorem ifPart (hU : ∀ a ∈ U, Upper a) {cx used r ea ss y eis used' r'} : IfPart nv env fn cx used r ea ss y eis used' r' →
    κ.In r → κ.In r' → (∀ n, UserCmd (ss ++ eis) n → Okay U n) → ∀ {usedX}, Adds U used usedX → ∃ usedX', Adds U used' usedX' ∧
      IfPart nv env' fn cx usedX (κ.tr r) (ea.onPos κ.m) (Ast.Stmt.onPosL κ.m ss) (y.onPos κ.m) (Ast.Stmt.onPosL κ.m eis)
        usedX' (κ.tr r')
  | .if_ h1 h2, i, i', hc, _, hu => by
    obtain ⟨t1, usedX1, hu1, a1⟩ := opens hU (by low) argGram i h1 hu
    obtain ⟨usedX2, hu2, a2⟩ := body hU h2 t1 i'.up (fun n hn => hc n (hn.mono fun x hx => by simp [hx])) hu1
    refine ⟨usedX2, hu2, ?_⟩
    rw [onPosS_append]
    exact .if_ a1 a2
  | .elseif h1 h2 h3, i, i', hc, _, hu => by
    have i2 := i.to.inTo (ifPart_suf h1) i' ((body_order h3).suffix.trans (opens_suf gram_suf h2))
    obtain ⟨usedX2, hu2, a2⟩ := ifPart hU h1 i i2 (fun n hn => hc n (hn.mono fun x hx => by
      simp only [List.mem_append] at hx ⊢
      exact hx.imp id .inl)) hu
    obtain ⟨t3, usedX3, hu3, a3⟩ := opens hU (by low) argGram i2 h2 hu2
    obtain ⟨usedX4, hu4, a4⟩ := body hU h3 t3 i'.up (fun n hn => hc n (by
      obtain ⟨y, ea, h1, h2⟩ := hn
      exact ⟨y, ea, .sub mem_last (Spec.PartS.mono h1 fun x hx => by simp [subStmts, hx]), h2⟩)) hu3
    refine ⟨usedX4, hu4, ?_⟩
    rw [onPosS_append, Ast.Stmt.onPosL, Ast.Stmt.onPosL, Ast.Stmt.onPos, onPosS_append]
    exact .elseif a2 a3 a4

theorem tryPart (hU : ∀ a ∈ U, Upper a) {cx used r ea ss cs used' r'} : TryPart nv env fn cx used r ea ss cs used' r' →
    κ.In r → κ.In r' → (∀ n, UserCmd (ss ++ cs) n → Okay U n) → ∀ {usedX}, Adds U used usedX → ∃ usedX', Adds U used' usedX' ∧
      TryPart nv env' fn cx usedX (κ.tr r) (ea.onPos κ.m) (Ast.Stmt.onPosL κ.m ss) (Ast.Stmt.onPosL κ.m cs)
        usedX' (κ.tr r')
  | .try_ h1 h2, i, i', hc, _, hu => by
    obtain ⟨t1, usedX1, hu1, a1⟩ := opens hU (by low) argNone i h1 hu
    obtain ⟨usedX2, hu2, a2⟩ := body hU h2 t1 i'.up (fun n hn => hc n (hn.mono fun x hx => by simp [hx])) hu1
    refine ⟨usedX2, hu2, ?_⟩
    rw [onPosS_append]
    exact .try_ a1 a2
  | .catch_ h1 h2 h3, i, i', hc, _, hu => by
    have i2 := i.to.inTo (tryPart_suf h1) i' ((body_order h3).suffix.trans (opens_suf catch_suf h2))
    obtain ⟨usedX2, hu2, a2⟩ := tryPart hU h1 i i2 (fun n hn => hc n (hn.mono fun x hx => by
      simp only [List.mem_append] at hx ⊢
      exact hx.imp id .inl)) hu
    obtain ⟨t3, usedX3, hu3, a3⟩ := opens hU (by low) argCatch i2 h2 hu2
    obtain ⟨usedX4, hu4, a4⟩ := body hU h3 t3 i'.up (fun n hn => hc n (by
      obtain ⟨y, ea, h1, h2⟩ := hn
      exact ⟨y, ea, .sub mem_last (Spec.PartS.mono h1 fun x hx => by simp [subStmts, hx]), h2⟩)) hu3
    refine ⟨usedX4, hu4, ?_⟩
    rw [onPosS_append, Ast.Stmt.onPosL, Ast.Stmt.onPosL, Ast.Stmt.onPos, onPosS_append]
    exact .catch_ a2 a3 a4

end

end Carry
end Viml
