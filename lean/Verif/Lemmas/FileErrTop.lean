/-
Which files are rejected.
-/
import Verif.Lemmas.FileErrLine

namespace Viml
open Prog Spec Props

section
variable {nv : Bool} {env : Env} {fn : Str} {b : Option Inner}

/-! ### Open blocks -/

mutual

theorem front_if : ∀ {cx used r ea ss x eis used' r'}, IfPart nv env fn cx used r ea ss x eis used' r' →
    Front nv env fn cx b used r → ∃ b', ifLike b' ∧ Front nv env fn cx.block b' used' r'
  | _, _, _, _, _, _, _, _, _, .if_ h1 h2, h => ⟨_, .inl rfl, .lines (.if_ h h1) h2⟩
  | _, _, _, _, _, _, _, _, _, .elseif h1 h2 h3, h => by
    obtain ⟨b', hb, h4⟩ := front_if h1 h
    exact ⟨_, .inr rfl, .lines (.elseif h4 hb h2) h3⟩

theorem front_try : ∀ {cx used r ea ss cs used' r'}, TryPart nv env fn cx used r ea ss cs used' r' →
    Front nv env fn cx b used r → ∃ b', tryLike b' ∧ Front nv env fn cx.block b' used' r'
  | _, _, _, _, _, _, _, _, .try_ h1 h2, h => ⟨_, .inl rfl, .lines (.try_ h h1) h2⟩
  | _, _, _, _, _, _, _, _, .catch_ h1 h2 h3, h => by
    obtain ⟨b', hb, h4⟩ := front_try h1 h
    exact ⟨_, .inr rfl, .lines (.catch_ h4 hb h2) h3⟩

end

mutual

theorem cur_front : ∀ {cx f fs used r}, Cur nv env fn cx f fs used r → Front nv env fn cx (innerOf f.head) used r
  | _, _, _, _, _, .mk h1 h2 _ _ _ => .lines (ctxt_front h1) h2

theorem ctxt_front : ∀ {cx h fs pre used r}, Ctxt nv env fn cx h fs pre used r → Front nv env fn cx (innerOf h) used r
  | _, _, _, _, _, _, .top => .start
  | _, _, _, _, _, _, .function h1 h2 _ _ _ => .function (cur_front h1) h2
  | _, _, _, _, _, _, .while_ h1 h2 _ => .while_ (cur_front h1) h2
  | _, _, _, _, _, _, .for_ h1 h2 _ _ => .for_ (cur_front h1) h2
  | _, _, _, _, _, _, .if_ h1 h2 _ => .if_ (cur_front h1) h2
  | _, _, _, _, _, _, .try_ h1 h2 => .try_ (cur_front h1) h2
  | _, _, _, _, _, _, .elseif h1 h2 _ h3 _ => by
    obtain ⟨b', hb, h4⟩ := front_if h2 (cur_front h1)
    exact .elseif h4 hb h3
  | _, _, _, _, _, _, .else_ h1 h2 _ h3 => by
    obtain ⟨b', hb, h4⟩ := front_if h2 (cur_front h1)
    exact .else_ h4 hb h3
  | _, _, _, _, _, _, .catch_ h1 h2 _ h3 => by
    obtain ⟨b', hb, h4⟩ := front_try h2 (cur_front h1)
    exact .catch_ h4 hb h3
  | _, _, _, _, _, _, .finally_ h1 h2 _ h3 => by
    obtain ⟨b', hb, h4⟩ := front_try h2 (cur_front h1)
    exact .finally_ h4 hb h3

end
end

section
variable {nv : Bool} {fn : Str} {lines : List Str} {f : Frame} {fs : List Frame} {used used' : List Str} {r r' : List Cell}

theorem ctxF_plain {h h' : Head} {g : Frame} (h1 : h.isPlain = true) (h2 : h'.isPlain = true) (h3 : g.head.isPlain = true) :
    ctxF h fs = ctxF h' (g :: fs) := by
  have e : ∀ {h : Head}, h.isPlain = true → h.isToplevel = false ∧ h.isFunction = false ∧ h.isWhile = false ∧ h.isFor = false := by
    intro h hh
    cases h <;> first | (cases hh; done) | exact ⟨rfl, rfl, rfl, rfl⟩
  obtain ⟨a1, a2, a3, a4⟩ := e h1
  obtain ⟨b1, b2, b3, b4⟩ := e h2
  obtain ⟨c1, c2, c3, c4⟩ := e h3
  simp [ctxF, a1, a2, a3, a4, b1, b2, b3, b4, c2, c3, c4]

theorem inner_plain_if {h : Head} (hh : ifLike (innerOf h)) : h.isPlain = true := by
  cases h <;> first | rfl | (simp [ifLike, innerOf] at hh)
theorem inner_plain_try {h : Head} (hh : tryLike (innerOf h)) : h.isPlain = true := by
  cases h <;> first | rfl | (simp [tryLike, innerOf] at hh)

/-- In an `:if`, the parts read so far can be collected. -/
theorem RunAt.inIf (h : RunAt nv lines f fs used r) (hh : ifLike (innerOf f.head)) :
    (f.head.isIf = true ∨ f.head.isElseif = true) ∧ ∃ g gs, (∀ cache q, Ok (mkEnv lines) (ifNorm ⟨nv, f, fs, cache⟩) q ⟨nv, g, gs, cache⟩ q) ∧
      ∀ hd : Head, hd.isPlain = true → ctxF f.head fs = ctxF hd (g :: gs) := by
  have hp := inner_plain_if hh
  have hh : f.head.isIf = true ∨ f.head.isElseif = true := by
    have := inner_ifLike.1 hh
    cases a : f.head.isIf <;> cases b : f.head.isElseif <;> simp [a, b] at this ⊢
  refine ⟨hh, ?_⟩
  obtain ⟨cache, h1, h2⟩ := h
  obtain ⟨cx, used, hC, _⟩ := reach_cur (fn := []) h2
  obtain ⟨cx, f0, fs0, u0, r0, ea, ss, x, eis, g, _, _, h3, ⟨h4, h5, _⟩ | ⟨h4, g0, h5, rfl⟩⟩ := cur_if hC hh
  · dsimp only at h4 h5
    refine ⟨f, fs, fun cache q => ?_, fun hd h => ctxF_plain hp h hp⟩
    simp only [ifNorm, h4]
    exact ok_pure.2 ⟨rfl, rfl⟩
  · dsimp only at h4 h5
    subst h5
    refine ⟨g0.attach (f.close none), f0 :: fs0, fun cache q => ?_, fun hd h => ?_⟩
    · simp only [ifNorm, h4]
      exact (ok_pop (st := ⟨nv, f, g0 :: f0 :: fs0, cache⟩) (e := none)).2 ⟨g0, f0 :: fs0, rfl, rfl, rfl⟩
    · have hg : (g0.attach (f.close none)).head.isPlain = true := by
        obtain ⟨_, _, e, _⟩ := h3.head
        rw [e]; rfl
      have hg0 : g0.head.isPlain = true := by rwa [attach_head] at hg
      rw [← ctxF_plain (h := g0.head) (fs := f0 :: fs0) hg0 hp hg0]
      exact ctxF_plain hg0 h hg

/-- In a `:try`, the parts read so far can be collected. -/
theorem RunAt.inTry (h : RunAt nv lines f fs used r) (hh : tryLike (innerOf f.head)) :
    (f.head.isTry = true ∨ f.head.isCatch = true) ∧ f.head.isFinally = false ∧
      ∃ g gs, (∀ cache q, Ok (mkEnv lines) (tryNorm ⟨nv, f, fs, cache⟩) q ⟨nv, g, gs, cache⟩ q) ∧
      ∀ hd : Head, hd.isPlain = true → ctxF f.head fs = ctxF hd (g :: gs) := by
  have hp := inner_plain_try hh
  have hf : f.head.isFinally = false := by
    cases e : f.head <;> first | rfl | (rw [e] at hh; simp [tryLike, innerOf] at hh)
  have hh : f.head.isTry = true ∨ f.head.isCatch = true := by
    have := inner_tryLike.1 hh
    cases a : f.head.isTry <;> cases b : f.head.isCatch <;> simp [a, b] at this ⊢
  refine ⟨hh, hf, ?_⟩
  obtain ⟨cache, h1, h2⟩ := h
  obtain ⟨cx, used, hC, _⟩ := reach_cur (fn := []) h2
  obtain ⟨cx, f0, fs0, u0, r0, ea, ss, cs, g, _, _, h3, ⟨h4, h5, _⟩ | ⟨h4, g0, h5, rfl⟩⟩ := cur_try hC hh
  · dsimp only at h4 h5
    refine ⟨f, fs, fun cache q => ?_, fun hd h => ctxF_plain hp h hp⟩
    simp only [tryNorm, h4]
    exact ok_pure.2 ⟨rfl, rfl⟩
  · dsimp only at h4 h5
    subst h5
    refine ⟨g0.attach (f.close none), f0 :: fs0, fun cache q => ?_, fun hd h => ?_⟩
    · simp only [tryNorm, h4]
      exact (ok_pop (st := ⟨nv, f, g0 :: f0 :: fs0, cache⟩) (e := none)).2 ⟨g0, f0 :: fs0, rfl, rfl, rfl⟩
    · have hg : (g0.attach (f.close none)).head.isPlain = true := by
        obtain ⟨_, e, _⟩ := h3.head
        rw [e]; rfl
      have hg0 : g0.head.isPlain = true := by rwa [attach_head] at hg
      rw [← ctxF_plain (h := g0.head) (fs := f0 :: fs0) hg0 hp hg0]
      exact ctxF_plain hg0 h hg

/-- Correct lines are parsed. -/
theorem front_run {cx : Ctx} {b : Option Inner} (h : Front nv (mkEnv lines) fn cx b used r) :
    ∃ f fs, RunAt nv lines f fs used r ∧ cx = ctxF f.head fs ∧ b = innerOf f.head := by
  induction h with
  | start => exact ⟨_, _, RunAt.nil nv lines, rfl, rfl⟩
  | lines _ hB ih =>
    obtain ⟨f, fs, h, hx, hb⟩ := ih
    obtain ⟨vs, _, k⟩ := body_complete hB hx h
    exact ⟨_, _, k, hx, hb⟩
  | @function cx b used r ea a cm used' r' _ h1 ih =>
    obtain ⟨f, fs, h, hx, hb⟩ := ih
    obtain ⟨n, is, ds, at_⟩ := a
    obtain ⟨⟨left, rl, da⟩, ea, ws, _, k1, k2, k3⟩ := h.opens h1 .function
      (fun (w : VExpr × List (Pos × Str) × List VExpr) ea => .function ea.cmdpos ea w.1 w.2.1 w.2.2 at_)
      (fun _ => True) (by decide +kernel)
      (fun r1 r2 hs hA => by
        obtain ⟨left, ps, g1, g2, g3, g4⟩ := function_complete (mkEnv_ok lines) hs hA
        exact ⟨(left, ps.rlist, ps.defaults), trivial, fun ea c cache => g4 ea c _⟩)
    exact ⟨_, _, k3, ctx_fun hx rfl, rfl⟩
  | while_ _ h1 ih =>
    obtain ⟨f, fs, h, hx, hb⟩ := ih
    obtain ⟨v, ea, ws, _, k1, k2, k3⟩ := h.opens h1 .while_ (fun (w : VExpr) ea => .while_ ea.cmdpos ea w)
      (fun _ => True) (by decide +kernel) (fun r1 r2 hs hA => by
        obtain ⟨v, g1, g2⟩ := expr_complete (mkEnv_ok lines) hs hA
        exact ⟨v, trivial, fun ea c cache => ok_bind.2 ⟨v, r2, g1, ok_pure.2 ⟨rfl, rfl⟩⟩⟩)
    exact ⟨_, _, k3, ctx_loop hx (.inl rfl), rfl⟩
  | for_ _ h1 ih =>
    obtain ⟨f, fs, h, hx, hb⟩ := ih
    obtain ⟨⟨lhs, v⟩, ea, ws, _, k1, k2, k3⟩ := h.opens h1 .for_ (fun (w : Lhs × VExpr) ea => .for_ ea.cmdpos ea w.1 w.2)
      (fun _ => True) (by decide +kernel) (fun r1 r2 hs hA => by
        cases hA with
        | @mk l ls rest _ _ _ x _ a1 a2 a3 a4 =>
          have a1 : LhsOf (mkEnv lines) fn (Target (mkEnv lines) fn) r1 (l, ls, rest) _ := a1
          have s1 := ((par_letlhs (fn := fn) (mkEnv_ok lines)).adv hs a1).adv.suf hs
          obtain ⟨lhs, b2, b1⟩ := (par_letlhs (fn := fn) (mkEnv_ok lines)).complete (a := (l, ls, rest)) hs a1
          obtain ⟨v, g1, g2⟩ := expr_complete (mkEnv_ok lines) (a3.adv.suf (a2.adv.suf s1)) a4
          refine ⟨(lhs, v), trivial, fun ea c cache => ?_⟩
          show Ok _ (cmdFor ea _) _ _ _
          unfold cmdFor
          refine ok_bind.2 ⟨lhs, _, b1, ?_⟩
          rw [bind_skipWhite]
          refine ⟨_, a2, ?_⟩
          rw [bind_getpos]
          unfold readAlpha
          rw [bind_readWhile]
          refine ⟨_, _, a3, ?_⟩
          rw [if_neg (by simp)]
          exact ok_bind.2 ⟨v, r2, g1, ok_pure.2 ⟨rfl, rfl⟩⟩)
    exact ⟨_, _, k3, ctx_loop hx (.inr rfl), rfl⟩
  | if_ _ h1 ih =>
    obtain ⟨f, fs, h, hx, hb⟩ := ih
    obtain ⟨v, ea, ws, _, k1, k2, k3⟩ := h.opens h1 .if_ (fun (w : VExpr) ea => .if_ ea.cmdpos ea w)
      (fun _ => True) (by decide +kernel) (fun r1 r2 hs hA => by
        obtain ⟨v, g1, g2⟩ := expr_complete (mkEnv_ok lines) hs hA
        exact ⟨v, trivial, fun ea c cache => ok_bind.2 ⟨v, r2, g1, ok_pure.2 ⟨rfl, rfl⟩⟩⟩)
    exact ⟨_, _, k3, ctx_block hx rfl, rfl⟩
  | try_ _ h1 ih =>
    obtain ⟨f, fs, h, hx, hb⟩ := ih
    obtain ⟨_, ea, ws, g1, k1, k2, k3⟩ := h.opens h1 .try_ (fun (_ : Unit) ea => .try_ ea.cmdpos ea) (fun _ => True) (by decide +kernel)
      (fun r1 r2 hs hA => ⟨(), trivial, fun ea c cache => by
        obtain rfl : r2 = r1 := hA
        exact ok_pure.2 ⟨rfl, rfl⟩⟩)
    exact ⟨_, _, k3, ctx_block hx rfl, rfl⟩
  | elseif _ hl h2 ih =>
    obtain ⟨f, fs, h, rfl, rfl⟩ := ih
    obtain ⟨k3, g, gs, k4, k5⟩ := h.inIf hl
    obtain ⟨v, ea, ws, _, k1, k2, k7⟩ := h.opens h2 .elseif (fun (w : VExpr) ea => .elseif ea.cmdpos ea w)
      (fun _ => True) (by decide +kernel) (fun r1 r2 hs hA => by
        obtain ⟨v, g1, g2⟩ := expr_complete (mkEnv_ok lines) hs hA
        refine ⟨v, trivial, fun ea c cache => ?_⟩
        show Ok _ (cmdElseif ea _) _ _ _
        rw [cmdElseif_eq, if_neg (not_of_or k3)]
        exact ok_bind.2 ⟨_, _, k4 cache _, ok_bind.2 ⟨v, r2, g1, ok_pure.2 ⟨rfl, rfl⟩⟩⟩)
    exact ⟨_, _, k7, k5 _ rfl, rfl⟩
  | else_ _ hl h2 ih =>
    obtain ⟨f, fs, h, rfl, rfl⟩ := ih
    obtain ⟨k3, g, gs, k4, k5⟩ := h.inIf hl
    obtain ⟨_, ea, ws, _, k1, k2, k7⟩ := h.opens h2 .else_ (fun (_ : Unit) ea => .else_ ea.cmdpos ea) (fun _ => True) (by decide +kernel)
      (fun r1 r2 hs hA => ⟨(), trivial, fun ea c cache => by
        obtain rfl : r2 = r1 := hA
        show Ok _ (cmdElse ea _) _ _ _
        rw [cmdElse_eq, if_neg (not_of_or k3)]
        exact ok_bind.2 ⟨_, _, k4 cache _, ok_pure.2 ⟨rfl, rfl⟩⟩⟩)
    exact ⟨_, _, k7, k5 _ rfl, rfl⟩
  | @catch_ cx b used r ea p cm used' r' _ hl h2 ih =>
    obtain ⟨f, fs, h, rfl, rfl⟩ := ih
    obtain ⟨k3, hf, g, gs, k4, k5⟩ := h.inTry hl
    obtain ⟨_, ea, ws, _, k1, k2, k7⟩ := h.opens h2 .catch_ (fun (_ : Unit) ea => .catch_ ea.cmdpos ea p) (fun _ => True) (by decide +kernel)
      (fun r1 r2 hs hA => ⟨(), trivial, fun ea c cache => by
        show Ok _ (cmdCatch ea _) _ _ _
        rw [cmdCatch_eq, hf, if_neg (by simp), if_neg (not_of_or k3)]
        refine ok_bind.2 ⟨_, _, k4 cache _, ?_⟩
        rw [bind_skipWhite]
        cases hA with
        | none a1 a2 =>
          refine ⟨_, a1, ?_⟩
          rw [bind_peek, endsSym_stop.2 a2]
          exact ok_pure.2 ⟨rfl, rfl⟩
        | pat a1 a2 a3 a4 =>
          refine ⟨_, a1, ?_⟩
          have a2 := Bool.not_eq_true _ ▸ mt endsSym_stop.1 a2
          rw [bind_peek, a2, if_pos (by rfl), bind_get, a3.head]
          rw [(reads_one_iff.1 a3).2] at a4
          exact bind_pattern.2 ⟨_, _, _, a4, ok_pure.2 ⟨rfl, rfl⟩⟩⟩)
    exact ⟨_, _, k7, k5 _ rfl, rfl⟩
  | finally_ _ hl h2 ih =>
    obtain ⟨f, fs, h, rfl, rfl⟩ := ih
    obtain ⟨k3, hf, g, gs, k4, k5⟩ := h.inTry hl
    obtain ⟨_, ea, ws, _, k1, k2, k7⟩ := h.opens h2 .finally_ (fun (_ : Unit) ea => .finally_ ea.cmdpos ea) (fun _ => True) (by decide +kernel)
      (fun r1 r2 hs hA => ⟨(), trivial, fun ea c cache => by
        obtain rfl : r2 = r1 := hA
        show Ok _ (cmdFinally ea _) _ _ _
        rw [cmdFinally_eq, if_neg (not_of_or k3)]
        exact ok_bind.2 ⟨_, _, k4 cache _, ok_pure.2 ⟨rfl, rfl⟩⟩⟩)
    exact ⟨_, _, k7, k5 _ rfl, rfl⟩

/-! ### Files -/

/-- Where the commands cannot be parsed to the end. -/
theorem cmds_fail {st : PState} {e : Fail} (n : Nat) (hn : r.length ≤ n) (h : Reach nv lines st r)
    (hr : (parseCmds st).run (mkEnv lines) r = .fail e) :
    ∃ st' r', Reach nv lines st' r' ∧ r' ≠ [] ∧ (parseOneCmd st').run (mkEnv lines) r' = .fail e := by
  induction n generalizing st r with
  | zero =>
    obtain rfl : r = [] := List.length_eq_zero_iff.1 (by omega)
    rw [parseCmds_run, List.length_nil, loopN_end] at hr
    cases hr
  | succ n ih =>
    by_cases hne : r = []
    · subst hne
      rw [parseCmds_run, List.length_nil, loopN_end] at hr
      cases hr
    obtain ⟨ho, hs⟩ := h.ok
    rw [parseCmds_step (mkEnv_ok lines) ho hs hne] at hr
    cases h1 : (parseOneCmd st).run (mkEnv lines) r with
    | fail e' =>
      rw [h1] at hr
      cases hr
      exact ⟨st, r, h, hne, h1⟩
    | ok st1 r1 =>
      rw [h1] at hr
      have hw := wp_run (parseOneCmd_spec (mkEnv_ok lines) (good_closed (fn := []) (mkEnv_ok lines)) hs hne ho) h1
      have := hw.lt
      exact ih (by omega) (.next h hne h1) hr

theorem Props.Reach.fails {st : PState} {e : Fail} (h : Reach nv lines st r) (hne : r ≠ [])
    (h1 : (parseOneCmd st).run (mkEnv lines) r = .fail e) : (parseToplevel nv).run (mkEnv lines) (mkEnv lines).buf = .fail e := by
  obtain ⟨ho, hs⟩ := h.ok
  rw [parseToplevel_run, ← h.cmds, parseCmds_step (mkEnv_ok lines) ho hs hne, h1]

/-- A failure of the parser comes from a line or from a missing end of a block. -/
theorem toplevel_fail {e : Fail} : (parseToplevel nv).run (mkEnv lines) (mkEnv lines).buf = .fail e ↔
    (∃ st r, Reach nv lines st r ∧ r ≠ [] ∧ (parseOneCmd st).run (mkEnv lines) r = .fail e) ∨
    ∃ st m b, Reach nv lines st [] ∧ innerOf st.cur.head = some b ∧ Unclosed b m ∧ e = .err m (mkEnv lines).eof := by
  constructor
  · intro h
    rw [parseToplevel_run] at h
    cases hc : (parseCmds (st0 nv)).run (mkEnv lines) (mkEnv lines).buf with
    | fail e' =>
      rw [hc] at h
      cases h
      exact .inl (cmds_fail _ (Nat.le_refl _) .start hc)
    | ok st r' =>
      rw [hc] at h
      obtain ⟨rfl, hr⟩ := cmds_reach _ (Nat.le_refl _) .start hc
      right
      have ho := hr.ok.1
      revert h hr
      split_shape ho <;> rename_i hr h <;> first | (cases h; done) | skip
      all_goals cases h
      all_goals refine ⟨_, _, _, hr, rfl, ?_, rfl⟩
      all_goals first
        | exact .function
        | exact .while_
        | exact .for_
        | exact .if_ (by simp [Spec.inIf, ifLike])
        | exact .try_ (by simp [Spec.inTry, tryLike])
  · rintro (⟨st, r, h1, h2, h3⟩ | ⟨st, m, b, h1, h2, h3, rfl⟩)
    · exact h1.fails h2 h3
    · have ho := h1.ok.1
      rw [h1.finish]
      revert h1 h2
      split_shape ho <;> rename_i h1 h2 <;> cases h2 <;> cases h3 <;> first | rfl | (rename_i h; simp [Spec.inIf, ifLike, Spec.inTry, tryLike] at h)

theorem file_err {m : Str} {q : Pos} : (parseToplevel nv).run (mkEnv lines) (mkEnv lines).buf = .fail (.err m q) ↔
    FileErr nv (mkEnv lines) fn m q := by
  have he := mkEnv_ok lines
  have hp := mkEnv_apart lines
  rw [toplevel_fail]
  constructor
  · rintro (⟨st, r, h1, h2, h3⟩ | ⟨st, m, b, h1, h2, h3, h4⟩)
    · obtain ⟨cx, used, k1, k2⟩ := reach_cur (fn := fn) h1
      obtain ⟨ho, hs⟩ := h1.ok
      have hn := h1.neovim
      subst hn
      have := line_bad_sound (fn := fn) he hp hs ho k2 h3
      rw [stCtx_eq, ← k1.ctx] at this
      exact .line (cur_front k1) this
    · cases h4
      obtain ⟨cx, used, k1, k2⟩ := reach_cur (fn := fn) h1
      have := cur_front k1
      rw [h2] at this
      exact .unclosed this h3
  · intro h
    cases h with
    | line h1 h2 =>
      obtain ⟨f, fs, ⟨cache, hc, hr⟩, rfl, rfl⟩ := front_run h1
      obtain ⟨ho, hs⟩ := hr.ok
      have h3 := line_bad_complete (st := ⟨nv, f, fs, cache⟩) he hp hs ho hc h2
      refine .inl ⟨_, _, hr, ?_, h3⟩
      rintro rfl
      obtain ⟨_, r0, h4, h5, _⟩ := (bad_oneCmd he hs).1 h3
      have := h4.adv.length
      obtain rfl : r0 = [] := List.length_eq_zero_iff.1 (by simpa using this)
      exact h5 (.inr rfl)
    | unclosed h1 h2 =>
      obtain ⟨f, fs, ⟨cache, hc, hr⟩, hx, hb⟩ := front_run h1
      exact .inr ⟨_, _, _, hr, hb.symm, h2, rfl⟩

end
end Viml
