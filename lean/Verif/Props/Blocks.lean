/-
C22: which sequences of block commands are accepted.
-/
import Verif.Lemmas.BlocksRun

namespace Viml.Props
open Viml Prog Spec

/-- The command at `r` is the block command `b`, and its name is at `rc`: the text there starts with a name for the
command.  `:function` counts only if it defines a function. -/
def BlockCmd (nv : Bool) (env : Env) (r : List Cell) (b : Blk) (rc : List Cell) : Prop :=
  CmdPlace env r rc ∧ ∃ c t s rn, LineIs rc (t ++ s) ∧ CmdOf nv c t s ∧ c.name = b.name ∧ Reads rc t rn ∧
    (b = .function → Defines env rn)

/-- Runs of the parser over a file: `bs` are the block commands of the commands parsed so far, in the order of the
file.  As in `Reach`, `st` is the state and `r` the rest of the file after these commands. -/
inductive Trace (nv : Bool) (lines : List Str) : List Blk → PState → List Cell → Prop
  | start : Trace nv lines [] (st0 nv) (mkEnv lines).buf
  | block {bs : List Blk} {st st' : PState} {r r' rc : List Cell} {b : Blk} : Trace nv lines bs st r → r ≠ [] →
      BlockCmd nv (mkEnv lines) r b rc → (parseOneCmd st).run (mkEnv lines) r = .ok st' r' →
      Trace nv lines (bs ++ [b]) st' r'
  | other {bs : List Blk} {st st' : PState} {r r' : List Cell} : Trace nv lines bs st r → r ≠ [] →
      (∀ b rc, ¬ BlockCmd nv (mkEnv lines) r b rc) → (parseOneCmd st).run (mkEnv lines) r = .ok st' r' →
      Trace nv lines bs st' r'

theorem Trace.reach {nv : Bool} {lines : List Str} {bs : List Blk} {st : PState} {r : List Cell}
    (h : Trace nv lines bs st r) : Reach nv lines st r := by
  induction h with
  | start => exact .start
  | block _ hne _ h ih => exact .next ih hne h
  | other _ hne _ h ih => exact .next ih hne h

theorem cmdPlace_det {env : Env} {r rc rc' : List Cell} (h : CmdPlace env r rc) (h' : CmdPlace env r rc') : rc = rc' := by
  obtain ⟨_, _, ms, r1, rg, r2, a1, a2, rfl, _⟩ := h
  obtain ⟨_, _, ms', r1', rg', r2', b1, b2, rfl, _⟩ := h'
  rw [a1] at b1
  cases b1
  rw [a2] at b2
  cases b2
  rfl

theorem nameOf_head {n t s : Str} (h : NameOf n t s) : ∃ x n' t', n = x :: n' ∧ t = x :: t' := by
  cases h with
  | k => exact ⟨_, _, _, rfl, rfl⟩
  | sub => exact ⟨_, _, _, rfl, rfl⟩
  | punct => exact ⟨_, _, _, rfl, rfl⟩
  | py h =>
    obtain ⟨u, rfl⟩ := h
    exact ⟨_, _, _, rfl, rfl⟩
  | delete h =>
    obtain ⟨_, u, x, e, hu, _⟩ := h
    have := List.append_inj_left' e rfl
    subst this
    cases n with
    | nil => exact absurd hu (by decide)
    | cons y n => exact ⟨_, _, _, rfl, rfl⟩
  | word h =>
    cases n with
    | nil => exact absurd rfl h
    | cons y n => exact ⟨_, _, _, rfl, rfl⟩

theorem tableCmd_abbrev {nv : Bool} {n : Str} {c : Cmd} (h : TableCmd nv n c) : Abbrev n c := by
  cases nv
  · obtain ⟨_, _, _, h, _⟩ := (show FirstOf _ _ _ from h)
    exact h
  · obtain ⟨_, ⟨_, _, _, h, _⟩ | ⟨_, _, _, _, h, _⟩⟩ := (show _ ∧ _ from h)
    · exact h
    · exact h

theorem blk_head (b : Blk) : ∃ x u, b.name = x :: u ∧ ¬ ('A' ≤ x ∧ x ≤ 'Z') := by
  cases b <;> exact ⟨_, _, rfl, by decide⟩

theorem digit_of_head {nv : Bool} {x : Char} {u : Str} (hx : ¬ ('A' ≤ x ∧ x ≤ 'Z')) : ¬ DigitWord nv (x :: u) := by
  rintro ⟨a, d, s', e, _, ⟨⟨y, a', rfl, hy⟩, _⟩, _⟩
  simp only [List.cons_append, List.cons.injEq] at e
  rw [e.1] at hx
  exact hx hy

theorem cmdOf_block {nv : Bool} {c : Cmd} {t s : Str} {b : Blk} (h : CmdOf nv c t s) (hb : c.name = b.name) :
    ¬ DigitWord nv (t ++ s) := by
  obtain ⟨x, u, hx, hu⟩ := blk_head b
  cases h with
  | table h1 h2 _ =>
    obtain ⟨y, n', t', rfl, rfl⟩ := nameOf_head h1
    obtain ⟨v, hv⟩ := (tableCmd_abbrev h2).1
    rw [hb, hx] at hv
    simp only [List.cons_append, List.cons.injEq] at hv
    rw [← hv.1] at hu
    exact digit_of_head hu
  | @user a b' _ _ _ h3 _ _ =>
    obtain ⟨⟨y, a', rfl, hy⟩, _⟩ := h3
    simp only [List.cons_append] at hb
    rw [hx] at hb
    simp only [List.cons.injEq] at hb
    rw [← hb.1] at hu
    exact absurd hy hu

section
variable {nv : Bool} {lines : List Str} {st st' : PState} {r r' rc rn : List Cell} {c : Cmd}
  {cc : List (Str × Option Cmd)} {b : Blk}

/-- Block commands are found. -/
theorem BlockCmd.found (hr : Reach nv lines st r) (h : BlockCmd nv (mkEnv lines) r b rc) :
    ∃ c cc rn, (findCommand st.neovim st.cache).run (mkEnv lines) rc = .ok (some c, cc) rn ∧ c.name = b.name ∧
      (b = .function → Defines (mkEnv lines) rn) := by
  obtain ⟨_, c, t, s, rn, hl, hc, hb, ht, hd⟩ := h
  obtain ⟨cc, hf⟩ := (C25_command nv lines st r rc rn (t ++ s) c hr hl (cmdOf_block hc hb)).2 ⟨t, s, rfl, hc, ht⟩
  exact ⟨c, cc, rn, hf, hb, hd⟩

theorem block_of_found (hr : Reach nv lines st r) (hp : CmdPlace (mkEnv lines) r rc)
    (hf : (findCommand st.neovim st.cache).run (mkEnv lines) rc = .ok (some c, cc) rn) (hb : c.name = b.name)
    (hd : b = .function → Defines (mkEnv lines) rn) : BlockCmd nv (mkEnv lines) r b rc := by
  have hl : LineIs rc (lineS rc) := lineIs_iff.2 rfl
  have hn : ¬ DigitWord nv (lineS rc) := by
    obtain ⟨_, _, h3⟩ := wp_run (findCommand_spec (T := tokGet) (env := mkEnv lines) hr.ok.1.cache (F := fun _ => False)) hf
    obtain ⟨_, t, h4, h5, h6, _⟩ := h3 c rfl
    obtain ⟨x, u, hx, hu⟩ := blk_head b
    cases t with
    | nil => exact absurd rfl h5
    | cons y t =>
      obtain ⟨v, hv⟩ := h6
      rw [hb, hx] at hv
      simp only [List.cons_append, List.cons.injEq] at hv
      obtain ⟨e, he, ha⟩ := hl
      cases hls : lineS rc with
      | nil =>
        rintro ⟨_, _, _, e, _⟩
        simp at e
      | cons z w =>
        rw [hls] at he
        have : Sym.ch z = Sym.ch y := he.head.symm.trans h4.head
        cases this
        rw [hv.1]
        exact digit_of_head hu
  obtain ⟨t, s, e, h1, h2⟩ := (C25_command nv lines st r rc rn _ c hr hl hn).1 ⟨cc, hf⟩
  exact ⟨hp, c, t, s, rn, e ▸ hl, h1, hb, h2, hd⟩

theorem known_of_found (hr : Reach nv lines st r)
    (hf : (findCommand st.neovim st.cache).run (mkEnv lines) rc = .ok (some c, cc) rn) :
    Known c ∧ CacheOK st.neovim cc := by
  obtain ⟨h1, _, h3⟩ := wp_run (findCommand_spec (T := tokGet) (env := mkEnv lines) hr.ok.1.cache (F := fun _ => False)) hf
  exact ⟨(h3 c rfl).1, h1⟩

end

theorem ens_args {ea : ExArg} {c : Cmd} {st : PState} {h : Handler} {Q : PState → Prop} (hd : dispatch c.parser = some h)
    (hq : ∀ ea, Ens (runHandler h ea c st) Q) : Ens (parseCommandArgs ea c st) Q := by
  unfold parseCommandArgs
  simp only [hd]
  refine Ens.bind fun _ => Ens.ite (fun _ => Ens.errAt) (fun _ => ?_)
  refine Ens.bind fun _ => Ens.bind fun _ => ?_
  simp only [← Prog.ite_b]
  refine Ens.bind fun _ => Ens.bind fun _ => Ens.bind fun _ => Ens.bind fun _ => Ens.bind fun _ => hq _

/-- What one command does to the open blocks. -/
theorem command_opn {nv : Bool} {lines : List Str} {st st' : PState} {r r' : List Cell} (hr : Reach nv lines st r)
    (h : (parseOneCmd st).run (mkEnv lines) r = .ok st' r') :
    (∀ b rc, BlockCmd nv (mkEnv lines) r b rc → bstep st.opn b = some st'.opn) ∧
    ((∀ b rc, ¬ BlockCmd nv (mkEnv lines) r b rc) → st'.opn = st.opn) := by
  have ho := hr.ok.1
  rcases parseOneCmd_ok ho h with ⟨h1, h2⟩ | ⟨rc, c, cc, rn, ea, s1, r1, hp, hf, ha, ht⟩
  · exact ⟨fun b rc hb => absurd ⟨rc, hb.1⟩ h2, fun _ => h1⟩
  obtain ⟨hk, hcc⟩ := known_of_found hr hf
  obtain ⟨hd, hh⟩ := dispatch_known hk
  have ho' : ({ st with cache := cc } : PState).OK := ⟨ho.stack, hcc⟩
  have same : ∀ {b rc'}, BlockCmd nv (mkEnv lines) r b rc' → c.name = b.name ∧ (b = .function → Defines (mkEnv lines) rn) := by
    intro b rc' hb
    obtain rfl := cmdPlace_det hp hb.1
    obtain ⟨c', cc', rn', hf', e1, e2⟩ := hb.found hr
    rw [hf] at hf'
    cases hf'
    exact ⟨e1, e2⟩
  cases hb : hd.blk with
  | none =>
    refine ⟨fun b rc' hbc => ?_, fun _ => ht.trans ?_⟩
    · rw [(handler_blk hk hh).2 (same hbc).1] at hb
      cases hb
    · exact ens_run (Q := fun s => s.opn = st.opn) (ens_args hh fun ea => keeps_handler hb) ha
  | some b =>
    have hbn := (handler_blk hk hh).1 hb
    by_cases hfn : hd = .function
    · subst hfn
      cases hb
      have hrun : ∃ ea', (cmdFunction ea' c { st with cache := cc }).runWith tokGet (mkEnv lines) (argStart rn) = .ok s1 r1 := by
        obtain ⟨ea', _, e⟩ := parseCommandArgs_run (T := tokGet) (env := mkEnv lines) (r := rn) (ea := ea)
          (st := { st with cache := cc }) hk hh (by simp) (fun _ => by rw [blk_no_bang hk hbn]; rfl)
        rw [e] at ha
        exact ⟨ea', ha⟩
      obtain ⟨ea', hrun⟩ := hrun
      obtain ⟨f1, f2⟩ := cmdFunction_opn hrun
      refine ⟨fun b rc' hbc => ?_, fun hno => ?_⟩
      · obtain ⟨e1, e2⟩ := same hbc
        have : b = .function := by
          have := (handler_blk hk hh).2 e1
          cases this
          rfl
        subst this
        rw [ht, f1 (e2 rfl)]
        rfl
      · rw [ht, f2 fun hdef => hno .function rc (block_of_found hr hp hf hbn fun _ => hdef)]
        rfl
    · refine ⟨fun b' rc' hbc => ?_, fun hno => absurd (block_of_found hr hp hf hbn ?_) (hno b rc)⟩
      · have := (handler_blk hk hh).2 (same hbc).1
        rw [hb] at this
        cases this
        rw [ht]
        exact ens_run (Q := fun s => bstep st.opn b = some s.opn) (ens_args hh fun ea => ens_handler ho' hb hfn) ha
      · rintro rfl
        cases hd <;> cases hb
        exact absurd rfl hfn

theorem Trace.opn {nv : Bool} {lines : List Str} {bs : List Blk} {st : PState} {r : List Cell}
    (h : Trace nv lines bs st r) : brun [] bs = some st.opn := by
  induction h with
  | start => rfl
  | block ht hne hb h ih =>
    rw [brun_snoc ih]
    exact (command_opn ht.reach h).1 _ _ hb
  | other ht hne hb h ih =>
    rw [ih, (command_opn ht.reach h).2 hb]

theorem blk_of_stack {o : Option Blk} {s : List Blk} {bs : List Blk} (hs : brun [] bs = some s)
    (ho : match o with | none => Blocks bs | some h => Innermost bs h) : s.head? = o := by
  cases o with
  | none =>
    have := blocks_iff.1 ho
    rw [hs] at this
    cases this
    rfl
  | some h => exact (innermost_iff hs h).1 ho

section
variable {nv : Bool} {lines : List Str} {st : PState} {r rc rn : List Cell} {b : Blk} {c : Cmd} {t s : Str}

/-- Running a block command. -/
theorem block_parts (hr : Reach nv lines st r) (hl : LineIs rc (t ++ s)) (hc : CmdOf nv c t s) (hb : c.name = b.name)
    (ht : Reads rc t rn) :
    ∃ cc h, (findCommand st.neovim st.cache).run (mkEnv lines) rc = .ok (some c, cc) rn ∧ Known c ∧
      ({ st with cache := cc } : PState).OK ∧ dispatch c.parser = some h ∧ h.blk = some b ∧ h ≠ .common := by
  obtain ⟨cc, hf⟩ := (C25_command nv lines st r rc rn (t ++ s) c hr hl (cmdOf_block hc hb)).2 ⟨t, s, rfl, hc, ht⟩
  obtain ⟨hk, hcc⟩ := known_of_found hr hf
  obtain ⟨hd, hh⟩ := dispatch_known hk
  have hbk := (handler_blk hk hh).2 hb
  refine ⟨cc, hd, hf, hk, ⟨hr.ok.1.stack, hcc⟩, hh, hbk, ?_⟩
  rintro rfl
  cases hbk

theorem lineIs_split (hl : LineIs rc (t ++ s)) : ∃ rn, Reads rc t rn ∧ LineIs rn s := by
  obtain ⟨e, h, ha⟩ := hl
  obtain ⟨rn, h1, h2⟩ := h.split
  exact ⟨rn, h1, e, h2, ha⟩

theorem lineIs_head (hl : LineIs rc s) (hs : ∀ s', s ≠ '!' :: s') : headSym rc ≠ .ch '!' := by
  obtain ⟨e, h, ha⟩ := hl
  cases s with
  | nil =>
    rw [h.nil_inv]
    rcases ha with h | h <;> rw [h] <;> simp
  | cons x s =>
    rw [h.head]
    intro h
    cases h
    exact hs s rfl

end

/-- C22: the commands of a file that are parsed without an error form a trace, whatever the file. -/
theorem C22_trace (nv : Bool) (lines : List Str) (st : PState) (r : List Cell) (h : Reach nv lines st r) :
    ∃ bs, Trace nv lines bs st r := by
  induction h with
  | start => exact ⟨_, .start⟩
  | @next st st' r r' h1 hne h ih =>
    obtain ⟨bs, ih⟩ := ih
    by_cases hb : ∃ b rc, BlockCmd nv (mkEnv lines) r b rc
    · obtain ⟨b, rc, hb⟩ := hb
      exact ⟨_, .block ih hne hb h⟩
    · exact ⟨_, .other ih hne (fun b rc hb' => hb ⟨b, rc, hb'⟩) h⟩

/-- C22: the block commands parsed so far can always be completed to a sequence of the grammar. -/
theorem C22_viable (nv : Bool) (lines : List Str) (bs : List Blk) (st : PState) (r : List Cell)
    (h : Trace nv lines bs st r) : Viable bs := viable_iff.2 ⟨_, h.opn⟩

/-- C22: a block command that the grammar does not allow after the block commands before it is an error at this
command.  The message depends on the command and the innermost open block. -/
theorem C22_reject (nv : Bool) (fn : Str) (lines : List Str) (bs : List Blk) (st : PState) (r rc : List Cell) (b : Blk)
    (c : Cmd) (t s : Str) (o : Option Blk) (ht : Trace nv lines bs st r) (hne : r ≠ [])
    (hp : CmdPlace (mkEnv lines) r rc) (hl : LineIs rc (t ++ s)) (hc : CmdOf nv c t s) (hb : c.name = b.name)
    (hs : ∀ s', s ≠ '!' :: s') (hv : ¬ Viable (bs ++ [b]))
    (ho : match o with | none => Blocks bs | some h => Innermost bs h) :
    parseFileLines nv fn lines = some ⟨none, some (.parse fn (posOf (mkEnv lines) rc).i (posOf (mkEnv lines) rc).lnum
      (posOf (mkEnv lines) rc).col (blockError o b))⟩ := by
  have hr := ht.reach
  obtain ⟨rn, h1, h2⟩ := lineIs_split hl
  obtain ⟨cc, h, hf, hk, hok, hd, hbk, hcm⟩ := block_parts hr hl hc hb h1
  have hn : bstep st.opn b = none := by
    cases e : bstep st.opn b with
    | none => rfl
    | some s => exact absurd (viable_iff.2 ⟨s, by rw [brun_snoc ht.opn, e]⟩) hv
  have hx : st.opn.head? = o := blk_of_stack ht.opn ho
  have hfail := parseOneCmd_fail (e := .err (blockError o b) (posOf (mkEnv lines) rc)) hp hf fun ea hea => by
    obtain ⟨ea', e1, e2⟩ := parseCommandArgs_run (T := tokGet) (env := mkEnv lines) (r := rn) (ea := ea)
      (st := { st with cache := cc }) hk hd hcm fun h => absurd h (lineIs_head h2 hs)
    rw [e2, err_handler hok hbk hn, e1, hea, show ({ st with cache := cc } : PState).opn.head? = o from hx]
  have := hr.fail hne hfail
  unfold parseFileLines
  simp only [this]
  rfl

/-- C22: of the block commands, only `:function` can have a bang. -/
theorem C22_bang (nv : Bool) (fn : Str) (lines : List Str) (bs : List Blk) (st : PState) (r rc : List Cell) (b : Blk)
    (c : Cmd) (t s : Str) (ht : Trace nv lines bs st r) (hne : r ≠ [])
    (hp : CmdPlace (mkEnv lines) r rc) (hl : LineIs rc (t ++ '!' :: s)) (hc : CmdOf nv c t ('!' :: s))
    (hb : c.name = b.name) (hf : b ≠ .function) :
    parseFileLines nv fn lines = some ⟨none, some (.parse fn (posOf (mkEnv lines) rc).i (posOf (mkEnv lines) rc).lnum
      (posOf (mkEnv lines) rc).col cs!"E477: No ! allowed")⟩ := by
  have hr := ht.reach
  obtain ⟨rn, h1, e, h2, _⟩ := lineIs_split hl
  obtain ⟨cc, h, hf', hk, hok, hd, hbk, hcm⟩ := block_parts hr hl hc hb h1
  have hfail := parseOneCmd_fail (e := .err cs!"E477: No ! allowed" (posOf (mkEnv lines) rc)) hp hf' fun ea hea => by
    rw [parseCommandArgs_bang hk hd hcm h2.head (by rw [blk_no_bang hk hb]; exact decide_eq_false hf), hea]
  have := hr.fail hne hfail
  unfold parseFileLines
  simp only [this]
  rfl

/-- C22: a block command that the grammar allows and whose arguments can be parsed is accepted. -/
theorem C22_accept (nv : Bool) (lines : List Str) (bs : List Blk) (st : PState) (r rc rn r1 : List Cell) (b : Blk)
    (c : Cmd) (t s : Str) (ht : Trace nv lines bs st r) (hne : r ≠ [])
    (hp : CmdPlace (mkEnv lines) r rc) (hl : LineIs rc (t ++ s)) (hc : CmdOf nv c t s) (hb : c.name = b.name)
    (hs : b ≠ .function → ∀ s', s ≠ '!' :: s') (hrn : Reads rc t rn) (ha : BlockArgs (mkEnv lines) b rn r1)
    (he : endsSym (headSym (spanS iswhite r1).2) = true) (hv : Viable (bs ++ [b])) :
    ∃ st', Trace nv lines (bs ++ [b]) st' (afterTrail r1) := by
  have hr := ht.reach
  obtain ⟨cc, h, hf, hk, hok, hd, hbk, hcm⟩ := block_parts hr hl hc hb hrn
  obtain ⟨rn', h1, h2⟩ := lineIs_split hl
  obtain rfl : rn' = rn := (reads_drop_eq h1).trans (reads_drop_eq hrn).symm
  have hn : bstep st.opn b ≠ none := by
    intro e
    obtain ⟨s, h⟩ := viable_iff.1 hv
    rw [brun_snoc ht.opn, e] at h
    cases h
  obtain ⟨s2, hrun⟩ := parseOneCmd_succ hp hf fun ea hea => by
    obtain ⟨ea', e1, e2⟩ := parseCommandArgs_run (T := tokGet) (env := mkEnv lines) (r := rn') (ea := ea)
      (st := { st with cache := cc }) hk hd hcm fun h => by
        rw [blk_no_bang hk hb]
        by_cases hfn : b = .function
        · exact decide_eq_true hfn
        · exact absurd h (lineIs_head h2 (hs hfn))
    obtain ⟨s1, e3⟩ := handler_run (ea := ea') (cmd := c) hok hbk hn ha
    obtain ⟨s2, e4⟩ := parseTrail_run (st := s1) (env := mkEnv lines) he
    exact ⟨s1, r1, s2, e2.trans e3, e4⟩
  refine ⟨s2, .block ht hne ⟨hp, c, t, s, rn', hl, hc, hb, hrn, ?_⟩ hrun⟩
  rintro rfl
  cases ha with
  | bare h => simp at h
  | cond h => simp at h
  | function a1 a2 a3 a4 a5 _ _ => exact ⟨a1, a2, _, _, a3, a5.head⟩

theorem finish_run {env : Env} {st : PState} {q : Pos} (h : st.OK) (r : List Cell) : (finishTop q st).run env r =
    match st.opn.head? with
    | none => .ok ⟨q, (collapse st.cur st.stack).body⟩ r
    | some x => .fail (.err (missingError x) (posOf env r)) := by
  cases r <;> split_shape h <;> rfl

/-- Commands parsed to the end. -/
theorem cmds_reach {nv : Bool} {lines : List Str} {st st' : PState} {r r' : List Cell} (n : Nat) (hn : r.length ≤ n)
    (h : Reach nv lines st r) (hr : (parseCmds st).run (mkEnv lines) r = .ok st' r') :
    r' = [] ∧ Reach nv lines st' [] := by
  induction n generalizing st r with
  | zero =>
    obtain rfl : r = [] := List.length_eq_zero_iff.1 (by omega)
    rw [parseCmds_run, List.length_nil, loopN_end] at hr
    cases hr
    exact ⟨rfl, h⟩
  | succ n ih =>
    by_cases hne : r = []
    · subst hne
      rw [parseCmds_run, List.length_nil, loopN_end] at hr
      cases hr
      exact ⟨rfl, h⟩
    obtain ⟨ho, hs⟩ := h.ok
    rw [parseCmds_step (mkEnv_ok lines) ho hs hne] at hr
    cases h1 : (parseOneCmd st).run (mkEnv lines) r with
    | fail e => rw [h1] at hr; cases hr
    | ok st1 r1 =>
      rw [h1] at hr
      have hw := wp_run (parseOneCmd_spec (mkEnv_ok lines) (good_closed (fn := []) (mkEnv_ok lines)) hs hne ho) h1
      have := hw.lt
      exact ih (by omega) (.next h hne h1) hr

theorem Reach.finish {nv : Bool} {lines : List Str} {st : PState} (h : Reach nv lines st []) :
    (parseToplevel nv).run (mkEnv lines) (mkEnv lines).buf =
      (finishTop (posOf (mkEnv lines) (mkEnv lines).buf) st).run (mkEnv lines) [] := by
  rw [parseToplevel_run, ← h.cmds, parseCmds_run, List.length_nil, loopN_end]

theorem accepted_iff (nv : Bool) (fn : Str) (lines : List Str) : (∃ f, parseFileLines nv fn lines = some ⟨some f, none⟩) ↔
    ∃ f r, (parseToplevel nv).run (mkEnv lines) (mkEnv lines).buf = .ok f r := by
  constructor
  · rintro ⟨f, h⟩
    unfold parseFileLines at h
    cases hr : (parseToplevel nv).run (mkEnv lines) (mkEnv lines).buf with
    | ok f' r => exact ⟨f', r, rfl⟩
    | fail e =>
      simp only [hr] at h
      cases e <;> simp [recoverFail] at h
  · rintro ⟨f, r, h⟩
    obtain ⟨a, ha, _⟩ := toplevel_export (fn := fn) h
    refine ⟨a, ?_⟩
    unfold parseFileLines
    simp only [h, ha]

/-- C22: at the end of the file, the block commands must be a sequence of the grammar. -/
theorem C22_end (nv : Bool) (fn : Str) (lines : List Str) (bs : List Blk) (st : PState) (ht : Trace nv lines bs st []) :
    (Blocks bs → ∃ f, parseFileLines nv fn lines = some ⟨some f, none⟩) ∧
    (∀ h, Innermost bs h → parseFileLines nv fn lines = some ⟨none, some (.parse fn (mkEnv lines).eof.i
      (mkEnv lines).eof.lnum (mkEnv lines).eof.col (missingError h))⟩) := by
  have hf := ht.reach.finish
  rw [finish_run ht.reach.ok.1] at hf
  refine ⟨fun hb => ?_, fun h hb => ?_⟩
  · rw [blk_of_stack (o := none) ht.opn hb] at hf
    exact (accepted_iff nv fn lines).2 ⟨_, _, hf⟩
  · rw [blk_of_stack (o := some h) ht.opn hb] at hf
    unfold parseFileLines
    simp only [hf]
    rfl

/-- C22: a file is accepted exactly when its commands can be parsed up to the end of the file and its block commands
are a sequence of the grammar. -/
theorem C22_file (nv : Bool) (fn : Str) (lines : List Str) :
    (∃ f, parseFileLines nv fn lines = some ⟨some f, none⟩) ↔ ∃ bs st, Trace nv lines bs st [] ∧ Blocks bs := by
  rw [accepted_iff]
  constructor
  · rintro ⟨f, r, h⟩
    rw [parseToplevel_run] at h
    cases hc : (parseCmds (st0 nv)).run (mkEnv lines) (mkEnv lines).buf with
    | fail e => rw [hc] at h; cases h
    | ok st r' =>
      rw [hc] at h
      obtain ⟨rfl, hr⟩ := cmds_reach _ (Nat.le_refl _) .start hc
      obtain ⟨bs, ht⟩ := C22_trace nv lines st [] hr
      refine ⟨bs, st, ht, ?_⟩
      rw [blocks_iff, ht.opn]
      simp only [finish_run hr.ok.1] at h
      cases ho : st.opn with
      | nil => rfl
      | cons x o => rw [ho] at h; cases h
  · rintro ⟨bs, st, ht, hb⟩
    exact (accepted_iff nv fn lines).1 ((C22_end nv fn lines bs st ht).1 hb)

end Viml.Props
