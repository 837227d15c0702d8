/-
The errors of every command: it stands where it cannot, or its arguments are wrong.
-/
import Verif.Lemmas.FileErrLet
import Verif.Lemmas.FileStep

namespace Viml
open Prog Spec

/-- The block of a frame. -/
def innerOf : Head → Option Inner
  | .toplevel => none
  | .function .. => some .function
  | .while_ .. => some .while_
  | .for_ .. => some .for_
  | .if_ .. => some .if_
  | .elseif .. => some .elseif
  | .else_ .. => some .else_
  | .try_ .. => some .try_
  | .catch_ .. => some .catch_
  | .finally_ .. => some .finally_

theorem inner_ifLike {h : Head} : ifLike (innerOf h) ↔ (!h.isIf && !h.isElseif) = false := by
  cases h <;> simp [ifLike, innerOf, Head.isIf, Head.isElseif]
theorem inner_if {h : Head} : inIf (innerOf h) ↔ (!h.isIf && !h.isElseif && !h.isElse) = false := by
  cases h <;> simp [inIf, ifLike, innerOf, Head.isIf, Head.isElseif, Head.isElse]
theorem inner_tryLike {h : Head} : tryLike (innerOf h) ↔ (!h.isTry && !h.isCatch) = false := by
  cases h <;> simp [tryLike, innerOf, Head.isTry, Head.isCatch]
theorem inner_try {h : Head} : inTry (innerOf h) ↔ (!h.isTry && !h.isCatch && !h.isFinally) = false := by
  cases h <;> simp [inTry, tryLike, innerOf, Head.isTry, Head.isCatch, Head.isFinally]
theorem inner_finally {h : Head} : innerOf h = some .finally_ ↔ h.isFinally = true := by
  cases h <;> simp [innerOf, Head.isFinally]
theorem inner_while {h : Head} : innerOf h = some .while_ ↔ (!h.isWhile) = false := by
  cases h <;> simp [innerOf, Head.isWhile]
theorem inner_for {h : Head} : innerOf h = some .for_ ↔ (!h.isFor) = false := by
  cases h <;> simp [innerOf, Head.isFor]

section
variable {env : Env} {fn : Str} {r r' : List Cell} {st st' : PState} {ea : ExArg} {c : Cmd} {r0 ra : List Cell} {msg : Str} {q : Pos}

theorem avoids_pop {F : Fail → Prop} (hF : Proper F) {e : Option EndNode} : Avoids F (popCtx st e) := by
  unfold popCtx
  avoid []

theorem avoids_ifNorm {F : Fail → Prop} (hF : Proper F) : Avoids F (ifNorm st) := by
  unfold ifNorm; avoid [avoids_pop hF]
theorem avoids_tryNorm {F : Fail → Prop} (hF : Proper F) : Avoids F (tryNorm st) := by
  unfold tryNorm; avoid [avoids_pop hF]

theorem norm_ok {b : Bool} (hst : b = true → st.stack ≠ []) :
    ∃ st', ∀ r, Ok env (if b = true then popCtx st none else pure st) r st' r := by
  cases b with
  | false => exact ⟨st, fun r => ok_pure.2 ⟨rfl, rfl⟩⟩
  | true =>
    obtain ⟨f, fs, h⟩ := List.exists_cons_of_ne_nil (hst rfl)
    exact ⟨_, fun r => ok_pop.2 ⟨f, fs, h, rfl, rfl⟩⟩

/-- A check before the rest of a command. -/
theorem bad_place {b : Bool} {m : Str} {p : Pos} {n : Prog PState} : Bad env (if b = true then errAt m p else n) r msg q ↔
    b = true ∧ msg = m ∧ q = p ∨ b = false ∧ Bad env n r msg q := by
  rw [bad_ite, bad_errAt, Bool.not_eq_true]

theorem bad_norm {m : Prog PState} (ha : Avoids Fail.isErr m) {s : PState} (hok : ∀ r, Ok env m r s r) {f : PState → Prog PState} :
    Bad env (m >>= f) r msg q ↔ Bad env (f s) r msg q := by
  rw [badb_match ha.noBad]
  constructor
  · rintro ⟨s', r1, h1, h2⟩
    obtain ⟨rfl, rfl⟩ := (hok r).det h1
    exact h2
  · intro h
    exact ⟨s, r, hok r, h⟩

/-! ### Commands of blocks -/

variable {b : Option Inner} {cx : Ctx}

theorem not_true_iff {a : Bool} {p : Prop} (h : p ↔ a = false) : a = true ↔ ¬ p := by
  rw [h, Bool.not_eq_false]

theorem bad_elseif (he : EnvOK env) (hs : Suf env r) (hst : st.cur.head.isToplevel = false → st.stack ≠ []) :
    Bad env (cmdElseif ea st) r msg q ↔ ¬ ifLike (innerOf st.cur.head) ∧ msg = cs!"E582: :elseif without :if" ∧ q = ea.cmdpos ∨
      ifLike (innerOf st.cur.head) ∧ GErr env fn 1 r msg q := by
  rw [cmdElseif_eq, bad_place, not_true_iff inner_ifLike, ← inner_ifLike]
  refine or_congr Iff.rfl (and_congr_right fun hl => ?_)
  obtain ⟨s, hok⟩ := norm_ok (env := env) (st := st) (b := !st.cur.head.isIf) fun _ => hst (by
    cases hh : st.cur.head <;> first | rfl | (rw [hh] at hl; rcases hl with hl | hl <;> cases hl))
  rw [bad_norm (avoids_ifNorm proper_err) hok, bad_then_pure, parseExpr1_bad he hs]

theorem bad_else : Bad env (cmdElse ea st) r msg q ↔
    ¬ ifLike (innerOf st.cur.head) ∧ msg = cs!"E581: :else without :if" ∧ q = ea.cmdpos := by
  rw [cmdElse_eq, bad_place, not_true_iff inner_ifLike, bad_then_pure, (avoids_ifNorm proper_err).noBad]
  simp

theorem bad_endif : Bad env (cmdEndif ea st) r msg q ↔
    ¬ inIf (innerOf st.cur.head) ∧ msg = cs!"E580: :endif without :if" ∧ q = ea.cmdpos := by
  rw [cmdEndif_eq, bad_place, not_true_iff inner_if,
    (avoids_bind (avoids_ifNorm proper_err) fun _ => avoids_pop proper_err).noBad]
  simp

theorem bad_endwhile : Bad env (cmdEndwhile ea st) r msg q ↔
    innerOf st.cur.head ≠ some .while_ ∧ msg = cs!"E588: :endwhile without :while" ∧ q = ea.cmdpos := by
  unfold cmdEndwhile
  rw [bad_place, not_true_iff inner_while, (avoids_pop proper_err).noBad]
  simp

theorem bad_endfor : Bad env (cmdEndfor ea st) r msg q ↔
    innerOf st.cur.head ≠ some .for_ ∧ msg = cs!"E588: :endfor without :for" ∧ q = ea.cmdpos := by
  unfold cmdEndfor
  rw [bad_place, not_true_iff inner_for, (avoids_pop proper_err).noBad]
  simp

theorem bad_catch (hst : st.cur.head.isToplevel = false → st.stack ≠ []) :
    Bad env (cmdCatch ea st) r msg q ↔
      innerOf st.cur.head = some .finally_ ∧ msg = cs!"E604: :catch after :finally" ∧ q = ea.cmdpos ∨
      ¬ inTry (innerOf st.cur.head) ∧ msg = cs!"E603: :catch without :try" ∧ q = ea.cmdpos ∨
      tryLike (innerOf st.cur.head) ∧ msg = e682 ∧ ∃ r1 d r2, Skip r r1 ∧ ¬ AtStop r1 ∧ Reads r1 [d] r2 ∧ PatErr env d 0 r2 q := by
  rw [cmdCatch_eq, bad_place, bad_place, ← inner_finally, not_true_iff inner_tryLike, ← inner_tryLike]
  have hf : st.cur.head.isFinally = false ↔ innerOf st.cur.head ≠ some .finally_ := by
    rw [← Bool.not_eq_true, ← inner_finally]
  rw [hf]
  have key : tryLike (innerOf st.cur.head) → (Bad env (tryNorm st >>= fun st => skipWhite >>= fun _ => peek >>= fun c =>
      if !endsSym c then get >>= fun c => parsePattern c.str >>= fun r => pure (st.push (.catch_ ea.cmdpos ea r.1))
      else pure (st.push (.catch_ ea.cmdpos ea []))) r msg q ↔
        msg = e682 ∧ ∃ r1 d r2, Skip r r1 ∧ ¬ AtStop r1 ∧ Reads r1 [d] r2 ∧ PatErr env d 0 r2 q) := by
    intro hl
    obtain ⟨s, hok⟩ := norm_ok (env := env) (st := st) (b := !st.cur.head.isTry) fun _ => hst (by
      cases hh : st.cur.head <;> first | rfl | (rw [hh] at hl; rcases hl with hl | hl <;> cases hl))
    rw [bad_norm (avoids_tryNorm proper_err) hok, badb_skipWhite]
    constructor
    · rintro ⟨r1, h1, h⟩
      rw [badb_peek, bad_ite] at h
      rcases h with ⟨h2, h⟩ | ⟨_, h⟩
      · have h2 : ¬ AtStop r1 := by
          rw [← endsSym_stop]; simpa using h2
        rw [badb_get] at h
        cases hq : headSym r1 with
        | eol => exact absurd (.inl (.inl hq)) h2
        | eof => exact absurd (.inl (.inr hq)) h2
        | ch d =>
          rw [hq] at h
          have h : Bad env (parsePattern [d]) _ _ _ := bad_then_pure.1 h
          obtain ⟨rfl, h3⟩ := bad_pattern.1 h
          exact ⟨rfl, r1, d, _, h1, h2, headSym_reads hq, h3⟩
      · exact (bad_pure.1 h).elim
    · rintro ⟨rfl, r1, d, r2, h1, h2, h3, h4⟩
      refine ⟨r1, h1, ?_⟩
      obtain ⟨hq, rfl⟩ := reads_one_iff.1 h3
      rw [badb_peek, bad_ite]
      refine .inl ⟨by rw [← endsSym_stop] at h2; simpa using h2, ?_⟩
      rw [badb_get, hq]
      exact bad_then_pure.2 (bad_pattern.2 ⟨rfl, h4⟩)
  constructor
  · rintro (h | ⟨h1, ⟨h2, h⟩ | ⟨h2, h⟩⟩)
    · exact .inl h
    · exact .inr (.inl ⟨fun h => h.elim h2 h1, h⟩)
    · exact .inr (.inr ⟨h2, (key h2).1 h⟩)
  · rintro (h | ⟨h1, h⟩ | ⟨h1, h⟩)
    · exact .inl h
    · exact .inr ⟨fun h2 => h1 (.inr h2), .inl ⟨fun h2 => h1 (.inl h2), h⟩⟩
    · refine .inr ⟨fun h2 => ?_, .inr ⟨h1, (key h1).2 h⟩⟩
      rw [h2] at h1
      rcases h1 with h1 | h1 <;> cases h1

theorem bad_finally : Bad env (cmdFinally ea st) r msg q ↔
    ¬ tryLike (innerOf st.cur.head) ∧ msg = cs!"E606: :finally without :try" ∧ q = ea.cmdpos := by
  rw [cmdFinally_eq, bad_place, not_true_iff inner_tryLike, bad_then_pure, (avoids_tryNorm proper_err).noBad]
  simp

theorem bad_endtry : Bad env (cmdEndtry ea st) r msg q ↔
    ¬ inTry (innerOf st.cur.head) ∧ msg = cs!"E602: :endtry without :try" ∧ q = ea.cmdpos := by
  rw [cmdEndtry_eq, bad_place, not_true_iff inner_try,
    (avoids_bind (avoids_tryNorm proper_err) fun _ => avoids_pop proper_err).noBad]
  simp

theorem bad_continue : Bad env (cmdContinue ea st) r msg q ↔
    (stCtx st).inLoop = false ∧ msg = cs!"E586: :continue without :while or :for" ∧ q = ea.cmdpos := by
  unfold cmdContinue
  rw [bad_place, bad_pure]
  simp only [stCtx, and_false, or_false]
  cases st.inContext Head.isWhile <;> cases st.inContext Head.isFor <;> simp

theorem bad_break : Bad env (cmdBreak ea st) r msg q ↔
    (stCtx st).inLoop = false ∧ msg = cs!"E587: :break without :while or :for" ∧ q = ea.cmdpos := by
  unfold cmdBreak
  rw [bad_place, bad_pure]
  simp only [stCtx, and_false, or_false]
  cases st.inContext Head.isWhile <;> cases st.inContext Head.isFor <;> simp

theorem badb_check {β : Type} {c : Bool} {m : Str} {p : Pos} {g : Unit → Prog β} :
    Bad env ((if c = true then errAt m p else pure ()) >>= g) r msg q ↔
      c = true ∧ msg = m ∧ q = p ∨ c = false ∧ Bad env (g ()) r msg q := by
  rw [badb_ite, bad_bind, bad_errAt, badb_pure, Bool.not_eq_true]
  refine or_congr (and_congr_right fun _ => ?_) Iff.rfl
  constructor
  · rintro (h | ⟨_, _, h, _⟩)
    · exact h
    · exact (ok_errAt.1 h).elim
  · exact .inl

theorem bad_endfunction : Bad env (cmdEndfunction ea st) r msg q ↔
    Misplaced (stCtx st) (innerOf st.cur.head) cs!"endfunction" msg ∧ q = ea.cmdpos := by
  unfold cmdEndfunction checkMissingEndif checkMissingEndtry checkMissingEndwhile checkMissingEndfor
  rw [badb_check, badb_check, badb_check, badb_check, bad_place]
  have hno : Bad env (getline >>= fun _ => popCtx st (some ⟨ea.cmdpos, ea⟩)) r msg q ↔ False :=
    (avoids_bind avoids_getline fun _ => avoids_pop proper_err).noBad
  rw [hno]
  cases hh : st.cur.head <;> simp only [innerOf, Head.isIf, Head.isElseif, Head.isElse, Head.isTry, Head.isCatch, Head.isFinally,
    Head.isWhile, Head.isFor, Head.isFunction, Bool.or_false, Bool.or_true, Bool.false_eq_true, false_and,
    true_and, false_or, or_false, Bool.not_false, Bool.not_true, reduceCtorEq, and_false]
  all_goals
    constructor
    first
    | (rintro ⟨rfl, rfl⟩
       refine ⟨?_, rfl⟩
       first
       | exact .endfunctionIf (.inl (.inl rfl)) | exact .endfunctionIf (.inl (.inr rfl)) | exact .endfunctionIf (.inr rfl)
       | exact .endfunctionTry (.inl (.inl rfl)) | exact .endfunctionTry (.inl (.inr rfl)) | exact .endfunctionTry (.inr rfl)
       | exact .endfunctionWhile rfl | exact .endfunctionFor rfl | exact .endfunction rfl)
    | exact False.elim
    rintro ⟨h, rfl⟩
    cases h with
    | endfunctionIf h => first | exact ⟨rfl, rfl⟩ | (rcases h with (h | h) | h <;> cases h)
    | endfunctionTry h => first | exact ⟨rfl, rfl⟩ | (rcases h with (h | h) | h <;> cases h)
    | endfunctionWhile h => first | exact ⟨rfl, rfl⟩ | cases h
    | endfunctionFor h => first | exact ⟨rfl, rfl⟩ | cases h
    | endfunction h => first | exact ⟨rfl, rfl⟩ | cases h

/-! ### Other commands -/

theorem bad_return (he : EnvOK env) (hs : Suf env r) : Bad env (cmdReturn ea st) r msg q ↔
    (stCtx st).inFunction = false ∧ msg = cs!"E133: :return not inside a function" ∧ q = ea.cmdpos ∨
    (stCtx st).inFunction = true ∧ ∃ r1, Skip r r1 ∧ ¬ (AtEnd r1 ∨ headSym r1 = .ch '|') ∧ GErr env fn 1 r1 msg q := by
  have hq : ∀ {r : List Cell}, (headSym r = .ch '"' ∨ endsSym (headSym r) = false) ↔ ¬ (AtEnd r ∨ headSym r = .ch '|') := by
    intro r
    rw [← exprStop]
    by_cases h : headSym r = .ch '"' <;> simp [h]
  unfold cmdReturn
  rw [bad_place]
  refine or_congr (by simp [stCtx]) (and_congr (by simp [stCtx]) ?_)
  rw [badb_skipWhite]
  refine exists_congr fun r1 => and_congr_right fun h1 => ?_
  rw [badb_peek, bad_ite, hq, bad_pure, and_false, or_false, bad_then_pure, parseExpr1_bad he (h1.adv.suf hs)]

theorem bad_call (he : EnvOK env) (hp : Apart env) (hs : Suf env r) : Bad env (cmdCall ea st) r msg q ↔
    ∃ r1, Skip r r1 ∧ (AtStop r1 ∧ msg = cs!"E471: Argument required" ∧ q = posOf env r1 ∨
      ¬ AtStop r1 ∧ (GErr env fn 1 r1 msg q ∨ ∃ e r2, Gram env fn 1 r1 e r2 ∧ ((∀ f p as, e ≠ .call f p as) ∧
        PlaceOf env fn (nodePos e) q ∧ msg = cs!"Not an function call"))) := by
  unfold cmdCall
  rw [badb_skipWhite]
  refine exists_congr fun r1 => and_congr_right fun h1 => ?_
  rw [badb_peek, bad_ite, endsSym_stop, bad_errHere]
  refine or_congr Iff.rfl (and_congr_right fun _ => ?_)
  have s1 := h1.adv.suf hs
  refine (parB_expr (fn := fn) he).bind s1 fun v e r2 k1 k2 k3 s2 => ?_
  rw [bad_ite, bad_errAt, bad_pure, and_false, or_false, export_place hp k1 (expr1_pos he s1 k2)]
  have hc : (!isCall v) = true ↔ ∀ f p as, e ≠ .call f p as := by
    rw [Bool.not_eq_true']
    constructor
    · rintro h f p as rfl
      rw [call_isCall k1] at h
      cases h
    · intro h
      rw [← Bool.not_eq_true]
      intro hh
      obtain ⟨f, p, as, h1, _⟩ := isCall_iff k1 hh
      exact h _ _ _ h1
  rw [hc]
  constructor
  · rintro ⟨h1, h2, h3⟩; exact ⟨h1, h3, h2⟩
  · rintro ⟨h1, h2, h3⟩; exact ⟨h1, h3, h2⟩

theorem bad_for (he : EnvOK env) (hp : Apart env) (hs : Suf env r) : Bad env (cmdFor ea st) r msg q ↔
    LhsErr env fn (TargetErr env fn) r msg q ∨ ∃ (a : Option Ast.Expr × List Ast.Expr × Option Ast.Expr) (r1 : List Cell),
      LhsAt env fn (Target env fn) r a.1 a.2.1 a.2.2 r1 ∧ ∃ r2, Skip r1 r2 ∧ ∃ w r3, Span isalpha r2 w r3 ∧
        (w ≠ cs!"in" ∧ msg = cs!"Missing \"in\" after :for" ∧ q = posOf env r2 ∨ w = cs!"in" ∧ GErr env fn 1 r3 msg q) := by
  unfold cmdFor
  refine (parB_letlhs (fn := fn) he hp).bind hs fun lhs a r1 _ _ _ s1 => ?_
  rw [badb_skipWhite]
  refine exists_congr fun r2 => and_congr_right fun h2 => ?_
  rw [badb_getpos]
  unfold readAlpha
  rw [badb_readWhile]
  refine exists_congr fun w => exists_congr fun r3 => and_congr_right fun h3 => ?_
  rw [bad_ite, bad_errAt, Classical.not_not, bad_then_pure, parseExpr1_bad he (h3.adv.suf (h2.adv.suf s1))]

theorem bad_lock (he : EnvOK env) (hp : Apart env) (hs : Suf env r) {g : Nat → List VExpr → PState} :
    Bad env (parseDepth >>= fun d => parseLvaluelist >>= fun l => pure (g d l)) r msg q ↔
      ∃ n r1, Depth r n r1 ∧ LockErr env fn r1 msg q := by
  rw [badb_match avoids_depth.noBad]
  refine exists_congr fun n => exists_congr fun r1 => ?_
  rw [ok_depth]
  refine and_congr_right fun h => ?_
  rw [bad_then_pure, bad_lvaluelist he hp (h.adv.suf hs)]

/-- Commands that can stand where they cannot. -/
def placed : List Str := [cs!"elseif", cs!"else", cs!"endif", cs!"endwhile", cs!"endfor", cs!"continue", cs!"break", cs!"catch",
  cs!"finally", cs!"endtry", cs!"return", cs!"endfunction"]

theorem misplaced_mem {n m : Str} (h : Misplaced cx b n m) : n ∈ placed := by
  cases h <;> simp [placed]

theorem misplaced_not {n : Str} (hn : c.name = n) (h : (decide (n ∉ placed)) = true) : ∀ m, ¬ Misplaced cx b c.name m := by
  intro m hm
  rw [hn] at hm
  exact of_decide_eq_true h (misplaced_mem hm)

theorem placed_parsed : placed.all (fun n => decide (n ∈ parsedCmds)) = true := by decide +kernel

/-- The errors of a command. -/
def CmdErr (env : Env) (fn : Str) (cx : Ctx) (b : Option Inner) (c : Cmd) (filter : Bool) (p : Pos) (ra r : List Cell) (msg : Str)
    (q : Pos) : Prop :=
  Misplaced cx b c.name msg ∧ q = p ∨ (∀ m, ¬ Misplaced cx b c.name m) ∧ ArgErr env fn c filter ra r msg q

theorem handler_bad_sound (he : EnvOK env) (hp : Apart env) (hi : HandlerAt env ea r0 ra r)
    (hst : st.cur.head.isToplevel = false → st.stack ≠ [])
    (h : Bad env (runHandler (byName c.name) ea c st) r msg q) :
    CmdErr env fn (stCtx st) (innerOf st.cur.head) c ea.usefilter ea.cmdpos ra r msg q := by
  have hs := hi.sufR
  have name : ∀ {hd : Handler} {l : List Str}, byName c.name = hd → hd ≠ .common →
      (nameTable.all fun x => decide (x.2 = hd → x.1 ∈ l)) = true → c.name ∈ l := by
    intro hd l h1 h2 h3
    exact of_decide_eq_true (List.all_eq_true.1 h3 _ (byName_mem h1 h2)) rfl
  -- commands that can stand everywhere
  have free : ∀ {hd : Handler} {l : List Str}, byName c.name = hd → hd ≠ .common →
      (nameTable.all fun x => decide (x.2 = hd → x.1 ∈ l)) = true → (l.all fun n => decide (n ∉ placed)) = true →
      (c.name ∈ l → ArgErr env fn c ea.usefilter ra r msg q) →
      CmdErr env fn (stCtx st) (innerOf st.cur.head) c ea.usefilter ea.cmdpos ra r msg q := by
    intro hd l h1 h2 h3 h4 h5
    have hn := name h1 h2 h3
    exact .inr ⟨fun m hm => of_decide_eq_true (List.all_eq_true.1 h4 _ hn) (misplaced_mem hm), h5 hn⟩
  -- commands that are wrong only in their place
  have wrong : ∀ {hd : Handler} {n m : Str}, byName c.name = hd → hd ≠ .common →
      (nameTable.all fun x => decide (x.2 = hd → x.1 = n)) = true → msg = m ∧ q = ea.cmdpos →
      Misplaced (stCtx st) (innerOf st.cur.head) n m →
      CmdErr env fn (stCtx st) (innerOf st.cur.head) c ea.usefilter ea.cmdpos ra r msg q := by
    rintro hd n m h1 h2 h3 ⟨rfl, rfl⟩ h5
    rw [← name_of h1 h2 h3] at h5
    exact .inl ⟨h5, rfl⟩
  cases hd : byName c.name <;> rw [hd] at h
  case common =>
    have hn := byName_common.1 hd
    refine .inr ⟨fun m hm => hn ?_, .raw (.inl hn) ((bad_common he hi).1 h)⟩
    exact of_decide_eq_true (List.all_eq_true.1 placed_parsed _ (misplaced_mem hm))
  case append => exact (h.avoid (avoids_append proper_err)).elim
  case loadkeymap => exact (h.avoid (avoids_loadkeymap proper_err)).elim
  case lua => exact (h.avoid (avoids_lua proper_err)).elim
  case modifierRange => exact (h.avoid avoids_modifierRange).elim
  case echohl =>
    refine (h.avoid ?_).elim
    unfold runHandler cmdEchohl
    avoid []
  case try_ => exact (bad_pure.1 h).elim
  case wincmd =>
    exact free (l := [cs!"wincmd"]) hd (by decide) (by decide +kernel) (by decide +kernel) fun hn =>
      .wincmd (by simpa using hn) (bad_wincmd.1 h)
  case «syntax» =>
    obtain ⟨rfl, h'⟩ := bad_syntax.1 h
    exact free (l := [cs!"syntax"]) hd (by decide) (by decide +kernel) (by decide +kernel) fun hn =>
      .syntax (by simpa using hn) h'
  case finish =>
    exact free (l := [cs!"finish"]) hd (by decide) (by decide +kernel) (by decide +kernel) fun hn =>
      .raw (.inr (by simpa using hn)) ((bad_finish he hi).1 h)
  case delfunction =>
    have h : Bad env (cmdDelfunction ea st) r msg q := h
    unfold cmdDelfunction at h
    rw [bad_then_pure, bad_lvalueFunc he hp hs] at h
    exact free (l := [cs!"delfunction"]) hd (by decide) (by decide +kernel) (by decide +kernel) fun hn =>
      .delfunction (by simpa using hn) h
  case function =>
    refine free (l := [cs!"function"]) hd (by decide) (by decide +kernel) (by decide +kernel) fun hn => ?_
    rcases (bad_function (fn := fn) he hp hi).1 h with h | ⟨h1, h⟩
    · exact .function (by simpa using hn) h
    · exact .funcListing (by simpa using hn) h1 h
  case call =>
    refine free (l := [cs!"call"]) hd (by decide) (by decide +kernel) (by decide +kernel) fun hn => ?_
    have hn := List.mem_singleton.1 hn
    obtain ⟨r1, h1, ⟨h2, rfl, rfl⟩ | ⟨h2, h | ⟨e, r2, h3, h4, h5, rfl⟩⟩⟩ := (bad_call (fn := fn) he hp hs).1 h
    · exact .callNone hn h1 h2
    · exact .call hn h1 h2 h
    · exact .noCall hn h1 h2 h3 h4 h5
  case let_ =>
    refine free (l := [cs!"let"]) hd (by decide) (by decide +kernel) (by decide +kernel) fun hn => ?_
    have hn := List.mem_singleton.1 hn
    obtain ⟨r1, h1, ⟨h2, h⟩ | ⟨h2, h | ⟨a, r2, h3, r3, h4, ⟨h5, h⟩ | ⟨r4, h5, h⟩ | ⟨op, r4, h5, h6, h7, h⟩⟩⟩⟩ := (bad_let (fn := fn) he hp hi).1 h
    · exact .letListing hn (.all h1 h2) h
    · exact .letLeft hn h1 h2 h
    · exact .letListing hn (.some ⟨r1, r2, h1, h2, h3, h4⟩ h5) h
    · exact .heredoc hn ⟨r1, r2, h1, h2, h3, h4⟩ h5 h
    · exact .let_ hn ⟨r1, r2, h1, h2, h3, h4⟩ h5 h6 h7 h
  case const_ =>
    refine free (l := [cs!"const"]) hd (by decide) (by decide +kernel) (by decide +kernel) fun hn => ?_
    have hn := List.mem_singleton.1 hn
    obtain ⟨r1, h1, ⟨h2, h⟩ | ⟨h2, h | ⟨a, r2, h3, r3, h4, ⟨h5, h⟩ | ⟨r4, h5, h⟩⟩⟩⟩ := (bad_const (fn := fn) he hp hi).1 h
    · exact .constListing hn (.all h1 h2) h
    · exact .constLeft hn h1 h2 h
    · refine .constListing hn (.some ⟨r1, r2, h1, h2, h3, h4⟩ ?_) h
      intro op hop
      rw [List.mem_singleton.1 hop]; exact h5
    · exact .const_ hn ⟨r1, r2, h1, h2, h3, h4⟩ h5 h
  case unlet =>
    have h : Bad env (cmdUnlet ea st) r msg q := h
    unfold cmdUnlet at h
    rw [bad_then_pure, bad_lvaluelist he hp hs] at h
    exact free (l := [cs!"unlet"]) hd (by decide) (by decide +kernel) (by decide +kernel) fun hn =>
      .unlet (by simpa using hn) h
  case lockvar =>
    obtain ⟨n, r1, h1, h⟩ := (bad_lock (fn := fn) he hp hs).1 h
    exact free (l := [cs!"lockvar"]) hd (by decide) (by decide +kernel) (by decide +kernel) fun hn =>
      .lock (.inl (by simpa using hn)) h1 h
  case unlockvar =>
    obtain ⟨n, r1, h1, h⟩ := (bad_lock (fn := fn) he hp hs).1 h
    exact free (l := [cs!"unlockvar"]) hd (by decide) (by decide +kernel) (by decide +kernel) fun hn =>
      .lock (.inr (by simpa using hn)) h1 h
  case if_ =>
    have h := (parseExpr1_bad (fn := fn) he hs).1 (bad_then_pure.1 h)
    exact free (l := [cs!"if"]) hd (by decide) (by decide +kernel) (by decide +kernel) fun hn =>
      .expr (by rw [List.mem_singleton.1 hn]; simp) h
  case while_ =>
    have h := (parseExpr1_bad (fn := fn) he hs).1 (bad_then_pure.1 h)
    exact free (l := [cs!"while"]) hd (by decide) (by decide +kernel) (by decide +kernel) fun hn =>
      .expr (by rw [List.mem_singleton.1 hn]; simp) h
  case throw =>
    have h := (parseExpr1_bad (fn := fn) he hs).1 (bad_then_pure.1 h)
    exact free (l := [cs!"throw"]) hd (by decide) (by decide +kernel) (by decide +kernel) fun hn =>
      .expr (by rw [List.mem_singleton.1 hn]; simp) h
  case eval =>
    have h := (parseExpr1_bad (fn := fn) he hs).1 (bad_then_pure.1 h)
    exact free (l := [cs!"eval"]) hd (by decide) (by decide +kernel) (by decide +kernel) fun hn =>
      .expr (by rw [List.mem_singleton.1 hn]; simp) h
  case echo =>
    have h := (bad_exprlist (fn := fn) he hs).1 (bad_then_pure.1 h)
    exact free (l := [cs!"echo"]) hd (by decide) (by decide +kernel) (by decide +kernel) fun hn =>
      .exprs (by rw [List.mem_singleton.1 hn]; simp) h
  case echon =>
    have h := (bad_exprlist (fn := fn) he hs).1 (bad_then_pure.1 h)
    exact free (l := [cs!"echon"]) hd (by decide) (by decide +kernel) (by decide +kernel) fun hn =>
      .exprs (by rw [List.mem_singleton.1 hn]; simp) h
  case echomsg =>
    have h := (bad_exprlist (fn := fn) he hs).1 (bad_then_pure.1 h)
    exact free (l := [cs!"echomsg"]) hd (by decide) (by decide +kernel) (by decide +kernel) fun hn =>
      .exprs (by rw [List.mem_singleton.1 hn]; simp) h
  case echoerr =>
    have h := (bad_exprlist (fn := fn) he hs).1 (bad_then_pure.1 h)
    exact free (l := [cs!"echoerr"]) hd (by decide) (by decide +kernel) (by decide +kernel) fun hn =>
      .exprs (by rw [List.mem_singleton.1 hn]; simp) h
  case execute =>
    have h := (bad_exprlist (fn := fn) he hs).1 (bad_then_pure.1 h)
    exact free (l := [cs!"execute"]) hd (by decide) (by decide +kernel) (by decide +kernel) fun hn =>
      .exprs (by rw [List.mem_singleton.1 hn]; simp) h
  case for_ =>
    refine free (l := [cs!"for"]) hd (by decide) (by decide +kernel) (by decide +kernel) fun hn => ?_
    have hn := List.mem_singleton.1 hn
    rcases (bad_for (fn := fn) he hp hs).1 h with h | ⟨a, r1, h1, r2, h2, w, r3, h3, ⟨h4, rfl, rfl⟩ | ⟨rfl, h⟩⟩
    · exact .forLeft hn h
    · exact .forIn hn h1 h2 h3 h4
    · exact .for_ hn h1 h2 h3 h
  case continue_ =>
    obtain ⟨h1, h⟩ := bad_continue.1 h
    exact wrong hd (by decide) (by decide +kernel) h (.continue_ h1)
  case break_ =>
    obtain ⟨h1, h⟩ := bad_break.1 h
    exact wrong hd (by decide) (by decide +kernel) h (.break_ h1)
  case else_ =>
    obtain ⟨h1, h⟩ := bad_else.1 h
    exact wrong hd (by decide) (by decide +kernel) h (.else_ h1)
  case endif =>
    obtain ⟨h1, h⟩ := bad_endif.1 h
    exact wrong hd (by decide) (by decide +kernel) h (.endif h1)
  case endwhile =>
    obtain ⟨h1, h⟩ := bad_endwhile.1 h
    exact wrong hd (by decide) (by decide +kernel) h (.endwhile h1)
  case endfor =>
    obtain ⟨h1, h⟩ := bad_endfor.1 h
    exact wrong hd (by decide) (by decide +kernel) h (.endfor h1)
  case finally_ =>
    obtain ⟨h1, h⟩ := bad_finally.1 h
    exact wrong hd (by decide) (by decide +kernel) h (.finally_ h1)
  case endtry =>
    obtain ⟨h1, h⟩ := bad_endtry.1 h
    exact wrong hd (by decide) (by decide +kernel) h (.endtry h1)
  case endfunction =>
    obtain ⟨h1, rfl⟩ := bad_endfunction.1 h
    exact wrong hd (by decide) (by decide +kernel) ⟨rfl, rfl⟩ h1
  case elseif =>
    rcases (bad_elseif (fn := fn) he hs hst).1 h with ⟨h1, h⟩ | ⟨h1, h⟩
    · exact wrong hd (by decide) (by decide +kernel) h (.elseif h1)
    · have hn : c.name = cs!"elseif" := name_of hd (by decide) (by decide +kernel)
      refine .inr ⟨fun m hm => ?_, .expr (by rw [hn]; simp) h⟩
      rw [hn] at hm
      cases hm with
      | elseif hm => exact hm h1
  case return_ =>
    rcases (bad_return (fn := fn) he hs).1 h with ⟨h1, h⟩ | ⟨h1, r1, h2, h3, h⟩
    · exact wrong hd (by decide) (by decide +kernel) h (.return_ h1)
    · have hn : c.name = cs!"return" := name_of hd (by decide) (by decide +kernel)
      refine .inr ⟨fun m hm => ?_, .return_ hn h2 h3 h⟩
      rw [hn] at hm
      cases hm with
      | return_ hm => rw [h1] at hm; cases hm
  case catch_ =>
    rcases (bad_catch hst).1 h with ⟨h1, h⟩ | ⟨h1, h⟩ | ⟨h1, rfl, r1, d, r2, h2, h3, h4, h⟩
    · exact wrong hd (by decide) (by decide +kernel) h (.catchLate h1)
    · exact wrong hd (by decide) (by decide +kernel) h (.catch_ h1)
    · have hn : c.name = cs!"catch" := name_of hd (by decide) (by decide +kernel)
      refine .inr ⟨fun m hm => ?_, .catch_ hn h2 h3 h4 h⟩
      rw [hn] at hm
      cases hm with
      | catchLate hm => rw [hm] at h1; rcases h1 with h1 | h1 <;> cases h1
      | catch_ hm => exact hm (.inl h1)

theorem handler_bad_complete (he : EnvOK env) (hp : Apart env) (hi : HandlerAt env ea r0 ra r)
    (hst : st.cur.head.isToplevel = false → st.stack ≠ [])
    (h : CmdErr env fn (stCtx st) (innerOf st.cur.head) c ea.usefilter ea.cmdpos ra r msg q) :
    Bad env (runHandler (byName c.name) ea c st) r msg q := by
  have hs := hi.sufR
  have nm : ∀ {n : Str} {hd : Handler}, c.name = n → byName n = hd → byName c.name = hd := by
    rintro n hd h rfl; rw [h]
  rcases h with ⟨h, rfl⟩ | ⟨hno, h⟩
  · generalize hn : c.name = n at h
    cases h with
    | elseif h1 => rw [(by decide +kernel : byName cs!"elseif" = .elseif)]; exact (bad_elseif (fn := fn) he hs hst).2 (.inl ⟨h1, rfl, rfl⟩)
    | else_ h1 => rw [(by decide +kernel : byName cs!"else" = .else_)]; exact bad_else.2 ⟨h1, rfl, rfl⟩
    | endif h1 => rw [(by decide +kernel : byName cs!"endif" = .endif)]; exact bad_endif.2 ⟨h1, rfl, rfl⟩
    | endwhile h1 => rw [(by decide +kernel : byName cs!"endwhile" = .endwhile)]; exact bad_endwhile.2 ⟨h1, rfl, rfl⟩
    | endfor h1 => rw [(by decide +kernel : byName cs!"endfor" = .endfor)]; exact bad_endfor.2 ⟨h1, rfl, rfl⟩
    | continue_ h1 => rw [(by decide +kernel : byName cs!"continue" = .continue_)]; exact bad_continue.2 ⟨h1, rfl, rfl⟩
    | break_ h1 => rw [(by decide +kernel : byName cs!"break" = .break_)]; exact bad_break.2 ⟨h1, rfl, rfl⟩
    | catchLate h1 => rw [(by decide +kernel : byName cs!"catch" = .catch_)]; exact (bad_catch hst).2 (.inl ⟨h1, rfl, rfl⟩)
    | catch_ h1 => rw [(by decide +kernel : byName cs!"catch" = .catch_)]; exact (bad_catch hst).2 (.inr (.inl ⟨h1, rfl, rfl⟩))
    | finally_ h1 => rw [(by decide +kernel : byName cs!"finally" = .finally_)]; exact bad_finally.2 ⟨h1, rfl, rfl⟩
    | endtry h1 => rw [(by decide +kernel : byName cs!"endtry" = .endtry)]; exact bad_endtry.2 ⟨h1, rfl, rfl⟩
    | return_ h1 => rw [(by decide +kernel : byName cs!"return" = .return_)]; exact (bad_return (fn := fn) he hs).2 (.inl ⟨h1, rfl, rfl⟩)
    | endfunctionIf h1 => rw [(by decide +kernel : byName cs!"endfunction" = .endfunction)]; exact bad_endfunction.2 ⟨.endfunctionIf h1, rfl⟩
    | endfunctionTry h1 => rw [(by decide +kernel : byName cs!"endfunction" = .endfunction)]; exact bad_endfunction.2 ⟨.endfunctionTry h1, rfl⟩
    | endfunctionWhile h1 => rw [(by decide +kernel : byName cs!"endfunction" = .endfunction)]; exact bad_endfunction.2 ⟨.endfunctionWhile h1, rfl⟩
    | endfunctionFor h1 => rw [(by decide +kernel : byName cs!"endfunction" = .endfunction)]; exact bad_endfunction.2 ⟨.endfunctionFor h1, rfl⟩
    | endfunction h1 => rw [(by decide +kernel : byName cs!"endfunction" = .endfunction)]; exact bad_endfunction.2 ⟨.endfunction h1, rfl⟩
  · cases h with
    | raw h1 h2 =>
      rcases h1 with h1 | h1
      · rw [byName_common.2 h1]; exact (bad_common he hi).2 h2
      · rw [nm h1 (hd := .finish) (by decide +kernel)]; exact (bad_finish he hi).2 h2
    | wincmd h1 h2 => rw [nm h1 (hd := .wincmd) (by decide +kernel)]; exact bad_wincmd.2 h2
    | «syntax» h1 h2 => rw [nm h1 (hd := .syntax) (by decide +kernel)]; exact bad_syntax.2 ⟨rfl, h2⟩
    | function h1 h2 => rw [nm h1 (hd := .function) (by decide +kernel)]; exact (bad_function he hp hi).2 (.inl h2)
    | funcListing h1 h2 h3 => rw [nm h1 (hd := .function) (by decide +kernel)]; exact (bad_function he hp hi).2 (.inr ⟨h2, h3⟩)
    | delfunction h1 h2 =>
      rw [nm h1 (hd := .delfunction) (by decide +kernel)]
      exact bad_then_pure.2 ((bad_lvalueFunc he hp hs).2 h2)
    | return_ h1 h2 h3 h4 =>
      rw [nm h1 (hd := .return_) (by decide +kernel)]
      refine (bad_return he hs).2 (.inr ⟨?_, _, h2, h3, h4⟩)
      rw [← Bool.not_eq_false]
      intro h
      exact hno _ (by rw [h1]; exact .return_ h)
    | callNone h1 h2 h3 => rw [nm h1 (hd := .call) (by decide +kernel)]; exact (bad_call (fn := fn) he hp hs).2 ⟨_, h2, .inl ⟨h3, rfl, rfl⟩⟩
    | call h1 h2 h3 h4 => rw [nm h1 (hd := .call) (by decide +kernel)]; exact (bad_call he hp hs).2 ⟨_, h2, .inr ⟨h3, .inl h4⟩⟩
    | noCall h1 h2 h3 h4 h5 h6 =>
      rw [nm h1 (hd := .call) (by decide +kernel)]
      exact (bad_call he hp hs).2 ⟨_, h2, .inr ⟨h3, .inr ⟨_, _, h4, h5, h6, rfl⟩⟩⟩
    | letLeft h1 h2 h3 h4 => rw [nm h1 (hd := .let_) (by decide +kernel)]; exact (bad_let he hp hi).2 ⟨_, h2, .inr ⟨h3, .inl h4⟩⟩
    | letListing h1 h2 h3 =>
      rw [nm h1 (hd := .let_) (by decide +kernel)]
      cases h2 with
      | all k1 k2 => exact (bad_let he hp hi).2 ⟨_, k1, .inl ⟨k2, h3⟩⟩
      | some k1 k2 =>
        obtain ⟨r1, r2, k3, k4, k5, k6⟩ := k1
        exact (bad_let he hp hi).2 ⟨r1, k3, .inr ⟨k4, .inr ⟨(_, _, _), r2, k5, _, k6, .inl ⟨k2, h3⟩⟩⟩⟩
    | let_ h1 h2 h3 h4 h5 h6 =>
      rw [nm h1 (hd := .let_) (by decide +kernel)]
      obtain ⟨r1, r2, k3, k4, k5, k6⟩ := h2
      exact (bad_let he hp hi).2 ⟨r1, k3, .inr ⟨k4, .inr ⟨(_, _, _), r2, k5, _, k6, .inr (.inr ⟨_, _, h3, h4, h5, h6⟩)⟩⟩⟩
    | heredoc h1 h2 h3 h4 =>
      rw [nm h1 (hd := .let_) (by decide +kernel)]
      obtain ⟨r1, r2, k3, k4, k5, k6⟩ := h2
      exact (bad_let he hp hi).2 ⟨r1, k3, .inr ⟨k4, .inr ⟨(_, _, _), r2, k5, _, k6, .inr (.inl ⟨_, h3, h4⟩)⟩⟩⟩
    | constLeft h1 h2 h3 h4 => rw [nm h1 (hd := .const_) (by decide +kernel)]; exact (bad_const he hp hi).2 ⟨_, h2, .inr ⟨h3, .inl h4⟩⟩
    | constListing h1 h2 h3 =>
      rw [nm h1 (hd := .const_) (by decide +kernel)]
      cases h2 with
      | all k1 k2 => exact (bad_const he hp hi).2 ⟨_, k1, .inl ⟨k2, h3⟩⟩
      | some k1 k2 =>
        obtain ⟨r1, r2, k3, k4, k5, k6⟩ := k1
        exact (bad_const he hp hi).2 ⟨r1, k3, .inr ⟨k4, .inr ⟨(_, _, _), r2, k5, _, k6, .inl ⟨k2 _ (by simp), h3⟩⟩⟩⟩
    | const_ h1 h2 h3 h4 =>
      rw [nm h1 (hd := .const_) (by decide +kernel)]
      obtain ⟨r1, r2, k3, k4, k5, k6⟩ := h2
      exact (bad_const he hp hi).2 ⟨r1, k3, .inr ⟨k4, .inr ⟨(_, _, _), r2, k5, _, k6, .inr ⟨_, h3, h4⟩⟩⟩⟩
    | unlet h1 h2 =>
      rw [nm h1 (hd := .unlet) (by decide +kernel)]
      exact bad_then_pure.2 ((bad_lvaluelist he hp hs).2 h2)
    | lock h1 h2 h3 =>
      rcases h1 with h1 | h1
      · rw [nm h1 (hd := .lockvar) (by decide +kernel)]
        exact (bad_lock he hp hs).2 ⟨_, _, h2, h3⟩
      · rw [nm h1 (hd := .unlockvar) (by decide +kernel)]
        exact (bad_lock he hp hs).2 ⟨_, _, h2, h3⟩
    | expr h1 h2 =>
      have hb := (parseExpr1_bad he hs).2 h2
      simp only [List.mem_cons, List.not_mem_nil, or_false] at h1
      rcases h1 with h1 | h1 | h1 | h1 | h1
      · rw [nm h1 (hd := .if_) (by decide +kernel)]; exact bad_then_pure.2 hb
      · rw [nm h1 (hd := .elseif) (by decide +kernel)]
        refine (bad_elseif he hs hst).2 (.inr ⟨?_, h2⟩)
        exact Classical.byContradiction fun h => hno _ (by rw [h1]; exact .elseif h)
      · rw [nm h1 (hd := .while_) (by decide +kernel)]; exact bad_then_pure.2 hb
      · rw [nm h1 (hd := .throw) (by decide +kernel)]; exact bad_then_pure.2 hb
      · rw [nm h1 (hd := .eval) (by decide +kernel)]; exact bad_then_pure.2 hb
    | exprs h1 h2 =>
      have hb := (bad_exprlist he hs).2 h2
      simp only [List.mem_cons, List.not_mem_nil, or_false] at h1
      rcases h1 with h1 | h1 | h1 | h1 | h1
      · rw [nm h1 (hd := .echo) (by decide +kernel)]; exact bad_then_pure.2 hb
      · rw [nm h1 (hd := .echon) (by decide +kernel)]; exact bad_then_pure.2 hb
      · rw [nm h1 (hd := .echomsg) (by decide +kernel)]; exact bad_then_pure.2 hb
      · rw [nm h1 (hd := .echoerr) (by decide +kernel)]; exact bad_then_pure.2 hb
      · rw [nm h1 (hd := .execute) (by decide +kernel)]; exact bad_then_pure.2 hb
    | forLeft h1 h2 => rw [nm h1 (hd := .for_) (by decide +kernel)]; exact (bad_for he hp hs).2 (.inl h2)
    | forIn h1 h2 h3 h4 h5 =>
      rw [nm h1 (hd := .for_) (by decide +kernel)]
      exact (bad_for he hp hs).2 (.inr ⟨(_, _, _), _, h2, _, h3, _, _, h4, .inl ⟨h5, rfl, rfl⟩⟩)
    | for_ h1 h2 h3 h4 h5 =>
      rw [nm h1 (hd := .for_) (by decide +kernel)]
      exact (bad_for he hp hs).2 (.inr ⟨(_, _, _), _, h2, _, h3, _, _, h4, .inr ⟨rfl, h5⟩⟩)
    | catch_ h1 h2 h3 h4 h5 =>
      rw [nm h1 (hd := .catch_) (by decide +kernel)]
      refine (bad_catch hst).2 (.inr (.inr ⟨?_, rfl, _, _, _, h2, h3, h4, h5⟩))
      have h6 : innerOf st.cur.head ≠ some .finally_ := fun h => hno _ (by rw [h1]; exact .catchLate h)
      have h7 : inTry (innerOf st.cur.head) := Classical.byContradiction fun h => hno _ (by rw [h1]; exact .catch_ h)
      exact h7.resolve_right h6

theorem handler_bad (he : EnvOK env) (hp : Apart env) (hi : HandlerAt env ea r0 ra r)
    (hst : st.cur.head.isToplevel = false → st.stack ≠ []) : Bad env (runHandler (byName c.name) ea c st) r msg q ↔
    CmdErr env fn (stCtx st) (innerOf st.cur.head) c ea.usefilter ea.cmdpos ra r msg q :=
  ⟨handler_bad_sound he hp hi hst, handler_bad_complete he hp hi hst⟩

end
end Viml
