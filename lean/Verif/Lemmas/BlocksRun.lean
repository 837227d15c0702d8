/-
What commands do to the stack of open blocks.
-/
import Verif.Props.Lookup
import Verif.Lemmas.Blocks

namespace Viml
open Prog Spec Props

def Head.blk : Head → Option Blk
  | .toplevel => none
  | .function .. => some .function
  | .if_ .. => some .if_
  | .elseif .. => some .elseif
  | .else_ .. => some .else_
  | .while_ .. => some .while_
  | .for_ .. => some .for_
  | .try_ .. => some .try_
  | .catch_ .. => some .catch_
  | .finally_ .. => some .finally_

def Blk.part : Blk → Bool
  | .elseif | .else_ | .catch_ | .finally_ => true
  | _ => false

/-- The open blocks; the last part of a block stands for the block. -/
def absH : List Head → List Blk
  | [] => []
  | h :: hs =>
    match h.blk with
    | none => []
    | some b => if b.part then b :: (absH hs).tail else b :: absH hs

def PState.opn (st : PState) : List Blk := absH (st.cur.head :: st.stack.map (·.head))

theorem opn_add (st : PState) (n : VStmt) : (st.add n).opn = st.opn := rfl
theorem opn_cache (st : PState) (c : List (Str × Option Cmd)) : ({ st with cache := c } : PState).opn = st.opn := rfl

/-- What holds of all results of a program. -/
def Ens {α : Type} (m : Prog α) (Q : α → Prop) : Prop :=
  ∀ T env r a r', m.runWith T env r = .ok a r' → Q a

theorem Ens.bind' {α β : Type} {m : Prog α} {f : α → Prog β} {P : α → Prop} {Q : β → Prop} (hm : Ens m P)
    (h : ∀ a, P a → Ens (f a) Q) : Ens (m >>= f) Q := by
  intro T env r b r' hr
  rw [runWith_bind] at hr
  cases h1 : m.runWith T env r with
  | fail e => rw [h1] at hr; cases hr
  | ok a r1 => rw [h1] at hr; exact h a (hm _ _ _ _ _ h1) _ _ _ _ _ hr

theorem Ens.bind {α β : Type} {m : Prog α} {f : α → Prog β} {Q : β → Prop}
    (h : ∀ a, Ens (f a) Q) : Ens (m >>= f) Q := Ens.bind' (P := fun _ => True) (fun _ _ _ _ _ _ => trivial) fun a _ => h a

theorem Ens.pure {α : Type} {a : α} {Q : α → Prop} (h : Q a) : Ens (Pure.pure a : Prog α) Q := by
  intro T env r b r' hr
  cases hr
  exact h

theorem Ens.fail {α : Type} {e : Fail} {Q : α → Prop} : Ens (Prog.fail e : Prog α) Q := by
  intro T env r b r' hr
  cases hr

theorem Ens.errAt {α : Type} {s : Str} {q : Pos} {Q : α → Prop} : Ens (Viml.errAt s q : Prog α) Q := Ens.fail

theorem Ens.errHere {α : Type} {s : Str} {Q : α → Prop} : Ens (Viml.errHere s : Prog α) Q :=
  Ens.bind fun _ => Ens.fail

theorem Ens.ite {α : Type} {c : Prop} [Decidable c] {a b : Prog α} {Q : α → Prop} (ha : c → Ens a Q)
    (hb : ¬ c → Ens b Q) : Ens (if c then a else b) Q := by
  split
  · exact ha ‹_›
  · exact hb ‹_›

macro "ens" : tactic => `(tactic| repeat' first
  | exact Ens.fail | exact Ens.errAt | exact Ens.errHere | exact Ens.pure rfl
  | exact Ens.ite (fun _ => Ens.pure rfl) (fun _ => Ens.pure rfl)
  | refine Ens.bind fun _ => ?_
  | refine Ens.ite (fun _ => ?_) (fun _ => ?_))

/-- The program leaves the open blocks as they are. -/
abbrev Keeps (st : PState) (m : Prog PState) : Prop := Ens m fun s => s.opn = st.opn

section
variable (st : PState) (ea : ExArg) (cmd : Cmd)

theorem keeps_parseComment : Keeps st (parseComment st) := by
  unfold parseComment; ens
theorem keeps_parseTrail : Keeps st (parseTrail st) := by
  unfold parseTrail
  refine Ens.bind fun _ => Ens.bind fun _ => ?_
  refine Ens.ite (fun _ => Ens.pure rfl) (fun _ => ?_)
  refine Ens.ite (fun _ => by ens) (fun _ => ?_)
  refine Ens.ite (fun _ => by ens) (fun _ => ?_)
  refine Ens.ite (fun _ => ?_) (fun _ => Ens.errHere)
  exact Ens.bind' (keeps_parseComment st) fun s hs => Ens.bind fun _ => Ens.pure hs
theorem keeps_cmdModifierRange : Keeps st (cmdModifierRange ea st) := by
  unfold cmdModifierRange; ens
theorem keeps_cmdCommon : Keeps st (cmdCommon ea cmd st) := by
  unfold cmdCommon
  ens
theorem keeps_cmdAppend : Keeps st (cmdAppend ea st) := by
  unfold cmdAppend; ens
theorem keeps_cmdLoadkeymap : Keeps st (cmdLoadkeymap ea st) := by
  unfold cmdLoadkeymap; ens
theorem keeps_cmdLua : Keeps st (cmdLua ea st) := by
  unfold cmdLua; ens
theorem keeps_cmdFinish : Keeps st (cmdFinish ea cmd st) := by
  unfold cmdFinish
  refine Ens.bind' (keeps_cmdCommon st ea cmd) fun s hs => Ens.ite (fun _ => ?_) (fun _ => Ens.pure hs)
  exact Ens.bind fun _ => Ens.pure hs
theorem keeps_cmdWincmd : Keeps st (cmdWincmd ea st) := by
  unfold cmdWincmd; ens
theorem keeps_cmdSyntax : Keeps st (cmdSyntax ea st) := by
  unfold cmdSyntax; ens
theorem keeps_cmdDelfunction : Keeps st (cmdDelfunction ea st) := by
  unfold cmdDelfunction; ens
theorem keeps_cmdReturn : Keeps st (cmdReturn ea st) := by
  unfold cmdReturn; ens
theorem keeps_cmdCall : Keeps st (cmdCall ea st) := by
  unfold cmdCall; ens
theorem keeps_parseHeredoc : Ens (parseHeredoc ea st) fun s => s.2.opn = st.opn := by
  unfold parseHeredoc
  refine Ens.bind fun x => ?_
  refine Ens.ite (fun _ => Ens.errHere) (fun _ => ?_)
  refine Ens.bind' (keeps_parseTrail st) fun s hs => Ens.bind fun _ => Ens.pure hs
theorem keeps_cmdLet : Keeps st (cmdLet ea cmd st) := by
  unfold cmdLet
  refine Ens.bind fun _ => Ens.bind fun _ => Ens.bind fun _ => ?_
  refine Ens.ite (fun _ => Ens.bind fun _ => keeps_cmdCommon st ea cmd) (fun _ => ?_)
  refine Ens.bind fun _ => Ens.bind fun _ => Ens.bind fun _ => Ens.bind fun _ => ?_
  simp only [← Prog.ite_b]
  refine Ens.bind fun _ => ?_
  refine Ens.ite (fun _ => Ens.bind fun _ => keeps_cmdCommon st ea cmd) (fun _ => ?_)
  refine Ens.ite (fun _ => by ens) (fun _ => ?_)
  refine Ens.ite (fun _ => ?_) (fun _ => by ens)
  refine Ens.bind fun _ => Ens.bind fun _ => Ens.bind' (keeps_parseHeredoc st ea) fun s hs => Ens.pure hs
theorem keeps_cmdConst : Keeps st (cmdConst ea cmd st) := by
  unfold cmdConst
  refine Ens.bind fun _ => Ens.bind fun _ => Ens.bind fun _ => ?_
  refine Ens.ite (fun _ => Ens.bind fun _ => keeps_cmdCommon st ea cmd) (fun _ => ?_)
  refine Ens.bind fun _ => Ens.bind fun _ => Ens.bind fun _ => ?_
  refine Ens.ite (fun _ => Ens.bind fun _ => keeps_cmdCommon st ea cmd) (fun _ => ?_)
  ens
theorem keeps_cmdUnlet : Keeps st (cmdUnlet ea st) := by
  unfold cmdUnlet; ens
theorem keeps_cmdLockvar : Keeps st (cmdLockvar ea st) := by
  unfold cmdLockvar; ens
theorem keeps_cmdUnlockvar : Keeps st (cmdUnlockvar ea st) := by
  unfold cmdUnlockvar; ens
theorem keeps_cmdContinue : Keeps st (cmdContinue ea st) := by
  unfold cmdContinue; ens
theorem keeps_cmdBreak : Keeps st (cmdBreak ea st) := by
  unfold cmdBreak; ens
theorem keeps_cmdThrow : Keeps st (cmdThrow ea st) := by
  unfold cmdThrow; ens
theorem keeps_cmdEval : Keeps st (cmdEval ea st) := by
  unfold cmdEval; ens
theorem keeps_cmdEcho (ty : EchoTy) : Keeps st (cmdEcho ty ea st) := by
  unfold cmdEcho; ens
theorem keeps_cmdEchohl : Keeps st (cmdEchohl ea st) := by
  unfold cmdEchohl; ens
theorem keeps_cmdExecute : Keeps st (cmdExecute ea st) := by
  unfold cmdExecute; ens
end

/-! ### Block commands -/

/-- Shapes of the context stack. -/
inductive Shape : PState → Prop
  | top (nv : Bool) (cur : Frame) (cache : List (Str × Option Cmd)) : cur.head = .toplevel → Shape ⟨nv, cur, [], cache⟩
  | block (nv : Bool) (cur : Frame) (b : Blk) (f : Frame) (fs : List Frame) (cache : List (Str × Option Cmd)) :
      cur.head.blk = some b → b.part = false → Shape ⟨nv, cur, f :: fs, cache⟩
  | part (nv : Bool) (cur : Frame) (b : Blk) (f : Frame) (fs : List Frame) (cache : List (Str × Option Cmd)) :
      cur.head.blk = some b → (b = .elseif ∨ b = .else_) ∧ f.head.blk = some .if_ ∨
        (b = .catch_ ∨ b = .finally_) ∧ f.head.blk = some .try_ → Shape ⟨nv, cur, f :: fs, cache⟩

theorem blk_if {h : Head} (hh : h.isIf = true) : h.blk = some .if_ := by cases h <;> cases hh <;> rfl
theorem blk_try {h : Head} (hh : h.isTry = true) : h.blk = some .try_ := by cases h <;> cases hh <;> rfl

theorem PState.OK.shape {st : PState} (h : st.OK) : Shape st := by
  obtain ⟨nv, ⟨hd, b, e1, e2, e3, e4⟩, stack, cache⟩ := st
  have h1 := h.stack.1
  cases hd <;> simp only [HeadOK] at h1
  case toplevel => subst h1; exact .top _ _ _ rfl
  case elseif =>
    obtain ⟨f, fs, rfl, hf⟩ := h1
    exact .part _ _ .elseif _ _ _ rfl (.inl ⟨.inl rfl, blk_if hf⟩)
  case else_ =>
    obtain ⟨f, fs, rfl, hf⟩ := h1
    exact .part _ _ .else_ _ _ _ rfl (.inl ⟨.inr rfl, blk_if hf⟩)
  case catch_ =>
    obtain ⟨f, fs, rfl, hf⟩ := h1
    exact .part _ _ .catch_ _ _ _ rfl (.inr ⟨.inl rfl, blk_try hf⟩)
  case finally_ =>
    obtain ⟨f, fs, rfl, hf⟩ := h1
    exact .part _ _ .finally_ _ _ _ rfl (.inr ⟨.inr rfl, blk_try hf⟩)
  all_goals
    cases stack with
    | nil => exact absurd rfl h1
    | cons f fs => exact .block _ _ _ _ _ _ rfl rfl

theorem opn_push_block {st : PState} {h : Head} {b : Blk} (hb : h.blk = some b) (hp : b.part = false) :
    (st.push h).opn = b :: st.opn := by
  show absH (h :: _) = _
  rw [absH, hb]
  simp only [hp]
  rfl

theorem opn_push_part {st : PState} {h : Head} {b : Blk} (hb : h.blk = some b) (hp : b.part = true) :
    (st.push h).opn = b :: st.opn.tail := by
  show absH (h :: _) = _
  rw [absH, hb]
  simp only [hp]
  rfl

theorem opn_pop {st st' : PState} {e : Option EndNode} (h : st.pop e = some st') :
    st'.opn = absH (st.stack.map (·.head)) := by
  obtain ⟨f, fs, h1, h2, h3, _⟩ := pop_head h
  show absH (st'.cur.head :: st'.stack.map (·.head)) = _
  rw [h1, h2, h3]
  rfl

theorem opn_block {st : PState} {b : Blk} (hb : st.cur.head.blk = some b) (hp : b.part = false) :
    st.opn = b :: absH (st.stack.map (·.head)) := by
  unfold PState.opn
  rw [absH, hb]
  simp only [hp]
  rfl

theorem opn_part {st : PState} {b : Blk} (hb : st.cur.head.blk = some b) (hp : b.part = true) :
    st.opn = b :: (absH (st.stack.map (·.head))).tail := by
  unfold PState.opn
  rw [absH, hb]
  simp only [hp]
  rfl

theorem ens_pop {st : PState} {e : Option EndNode} {Q : PState → Prop}
    (h : ∀ st', st'.opn = absH (st.stack.map (·.head)) → (∀ f fs, st.stack = f :: fs → st'.stack = fs ∧ st'.cur.head = f.head) →
      Q st') : Ens (popCtx st e) Q := by
  unfold popCtx
  cases hp : st.pop e with
  | none => exact Ens.fail
  | some st' =>
    refine Ens.pure (h st' (opn_pop hp) ?_)
    intro f fs hs
    obtain ⟨f', fs', h1, h2, h3, _⟩ := pop_head hp
    rw [hs] at h1
    cases h1
    exact ⟨h3, h2⟩

/-- Case distinction on the kinds of the innermost blocks. -/
theorem PState.OK.elim {st : PState} (h : st.OK) {motive : PState → Prop}
    (top : ∀ nv b1 b2 b3 b4 b5 cache, motive ⟨nv, ⟨.toplevel, b1, b2, b3, b4, b5⟩, [], cache⟩)
    (function : ∀ nv (q : Pos) (ea : ExArg) (l : VExpr) (rl : List (Pos × Str)) (da : List VExpr) (at_ : FuncAttr) b1 b2 b3 b4 b5 f fs cache,
      motive ⟨nv, ⟨.function q ea l rl da at_, b1, b2, b3, b4, b5⟩, f :: fs, cache⟩)
    (if_ : ∀ nv (q : Pos) (ea : ExArg) (c : VExpr) b1 b2 b3 b4 b5 f fs cache,
      motive ⟨nv, ⟨.if_ q ea c, b1, b2, b3, b4, b5⟩, f :: fs, cache⟩)
    (while_ : ∀ nv (q : Pos) (ea : ExArg) (c : VExpr) b1 b2 b3 b4 b5 f fs cache,
      motive ⟨nv, ⟨.while_ q ea c, b1, b2, b3, b4, b5⟩, f :: fs, cache⟩)
    (for_ : ∀ nv (q : Pos) (ea : ExArg) (l : Lhs) (c : VExpr) b1 b2 b3 b4 b5 f fs cache,
      motive ⟨nv, ⟨.for_ q ea l c, b1, b2, b3, b4, b5⟩, f :: fs, cache⟩)
    (try_ : ∀ nv (q : Pos) (ea : ExArg) b1 b2 b3 b4 b5 f fs cache,
      motive ⟨nv, ⟨.try_ q ea, b1, b2, b3, b4, b5⟩, f :: fs, cache⟩)
    (elseif : ∀ nv (q : Pos) (ea : ExArg) (c : VExpr) b1 b2 b3 b4 b5 (q' : Pos) (ea' : ExArg) (c' : VExpr) c1 c2 c3 c4 c5 f fs cache,
      motive ⟨nv, ⟨.elseif q ea c, b1, b2, b3, b4, b5⟩, ⟨.if_ q' ea' c', c1, c2, c3, c4, c5⟩ :: f :: fs, cache⟩)
    (else_ : ∀ nv (q : Pos) (ea : ExArg) b1 b2 b3 b4 b5 (q' : Pos) (ea' : ExArg) (c' : VExpr) c1 c2 c3 c4 c5 f fs cache,
      motive ⟨nv, ⟨.else_ q ea, b1, b2, b3, b4, b5⟩, ⟨.if_ q' ea' c', c1, c2, c3, c4, c5⟩ :: f :: fs, cache⟩)
    (catch_ : ∀ nv (q : Pos) (ea : ExArg) (c : Str) b1 b2 b3 b4 b5 (q' : Pos) (ea' : ExArg) c1 c2 c3 c4 c5 f fs cache,
      motive ⟨nv, ⟨.catch_ q ea c, b1, b2, b3, b4, b5⟩, ⟨.try_ q' ea', c1, c2, c3, c4, c5⟩ :: f :: fs, cache⟩)
    (finally_ : ∀ nv (q : Pos) (ea : ExArg) b1 b2 b3 b4 b5 (q' : Pos) (ea' : ExArg) c1 c2 c3 c4 c5 f fs cache,
      motive ⟨nv, ⟨.finally_ q ea, b1, b2, b3, b4, b5⟩, ⟨.try_ q' ea', c1, c2, c3, c4, c5⟩ :: f :: fs, cache⟩)
    : motive st := by
  cases h.shape with
  | top nv cur cache hc =>
    obtain ⟨hd, b1, b2, b3, b4, b5⟩ := cur
    cases hc
    apply top
  | block nv cur b f fs cache hc hp =>
    obtain ⟨hd, b1, b2, b3, b4, b5⟩ := cur
    cases hd <;> cases hc <;> first | (cases hp; done) | skip
    · apply function
    · apply if_
    · apply while_
    · apply for_
    · apply try_
  | part nv cur b f fs cache hc hp =>
    obtain ⟨hd, b1, b2, b3, b4, b5⟩ := cur
    obtain ⟨hd', c1, c2, c3, c4, c5⟩ := f
    have hne : HeadOK hd' fs := h.stack.2.1
    cases hd <;> cases hc <;> rcases hp with ⟨hp | hp, hq⟩ | ⟨hp | hp, hq⟩ <;> cases hp <;> cases hd' <;> cases hq
    · cases fs with
      | nil => exact absurd rfl hne
      | cons f fs => apply elseif
    · cases fs with
      | nil => exact absurd rfl hne
      | cons f fs => apply else_
    · cases fs with
      | nil => exact absurd rfl hne
      | cons f fs => apply catch_
    · cases fs with
      | nil => exact absurd rfl hne
      | cons f fs => apply finally_

/-- Splits a state into the possible kinds of the innermost blocks. -/
macro "split_shape" h:ident : tactic => `(tactic| (apply PState.OK.elim $h <;> intros))

section
variable {st : PState} {ea : ExArg}

theorem ens_if : Ens (cmdIf ea st) fun s => bstep st.opn .if_ = some s.opn :=
  Ens.bind fun _ => Ens.pure rfl
theorem ens_while : Ens (cmdWhile ea st) fun s => bstep st.opn .while_ = some s.opn :=
  Ens.bind fun _ => Ens.pure rfl
theorem ens_for : Ens (cmdFor ea st) fun s => bstep st.opn .for_ = some s.opn := by
  unfold cmdFor
  ens
theorem ens_try : Ens (cmdTry ea st) fun s => bstep st.opn .try_ = some s.opn := Ens.pure rfl
theorem ens_elseif (h : st.OK) : Ens (cmdElseif ea st) fun s => bstep st.opn .elseif = some s.opn := by
  split_shape h <;> first
    | exact Ens.errAt
    | exact (show Ens (parseExpr1 >>= fun e => pure (PState.push _ (Head.elseif ea.cmdpos ea e))) _ from
        Ens.bind fun _ => Ens.pure rfl)
theorem ens_else (h : st.OK) : Ens (cmdElse ea st) fun s => bstep st.opn .else_ = some s.opn := by
  split_shape h <;> first | exact Ens.errAt | exact Ens.pure rfl
theorem ens_endif (h : st.OK) : Ens (cmdEndif ea st) fun s => bstep st.opn .endif = some s.opn := by
  split_shape h <;> first | exact Ens.errAt | exact Ens.pure rfl
theorem ens_endwhile (h : st.OK) : Ens (cmdEndwhile ea st) fun s => bstep st.opn .endwhile = some s.opn := by
  split_shape h <;> first | exact Ens.errAt | exact Ens.pure rfl
theorem ens_endfor (h : st.OK) : Ens (cmdEndfor ea st) fun s => bstep st.opn .endfor = some s.opn := by
  split_shape h <;> first | exact Ens.errAt | exact Ens.pure rfl
theorem ens_endfunction (h : st.OK) :
    Ens (cmdEndfunction ea st) fun s => bstep st.opn .endfunction = some s.opn := by
  split_shape h <;> first
    | exact Ens.errAt
    | exact (show Ens (getline >>= fun _ => pure _) _ from Ens.bind fun _ => Ens.pure rfl)
theorem ens_catch (h : st.OK) : Ens (cmdCatch ea st) fun s => bstep st.opn .catch_ = some s.opn := by
  split_shape h <;> first
    | exact Ens.errAt
    | exact (show Ens (skipWhite >>= fun _ => peek >>= fun x => if (!endsSym x) = true then
          (get >>= fun c => parsePattern c.str >>= fun r => pure (PState.push _ (.catch_ ea.cmdpos ea r.1)))
          else pure (PState.push _ (.catch_ ea.cmdpos ea []))) _ from
        Ens.bind fun _ => Ens.bind fun _ => Ens.ite
          (fun _ => Ens.bind fun _ => Ens.bind fun _ => Ens.pure rfl) (fun _ => Ens.pure rfl))
theorem ens_finally (h : st.OK) : Ens (cmdFinally ea st) fun s => bstep st.opn .finally_ = some s.opn := by
  split_shape h <;> first | exact Ens.errAt | exact Ens.pure rfl
theorem ens_endtry (h : st.OK) : Ens (cmdEndtry ea st) fun s => bstep st.opn .endtry = some s.opn := by
  split_shape h <;> first | exact Ens.errAt | exact Ens.pure rfl

variable {T : Env → List Cell → Res Token} {env : Env} {r : List Cell}

/-- The error of a command that does not fit. -/
abbrev BlockErr (T : Env → List Cell → Res Token) (env : Env) (r : List Cell) (st : PState) (ea : ExArg) (b : Blk)
    (m : Prog PState) : Prop :=
  bstep st.opn b = none → m.runWith T env r = .fail (.err (blockError st.opn.head? b) ea.cmdpos)

theorem err_elseif (h : st.OK) : BlockErr T env r st ea .elseif (cmdElseif ea st) := by
  split_shape h <;> first | (intro hn; cases hn; done) | (intro _; rfl)
theorem err_else (h : st.OK) : BlockErr T env r st ea .else_ (cmdElse ea st) := by
  split_shape h <;> first | (intro hn; cases hn; done) | (intro _; rfl)
theorem err_endif (h : st.OK) : BlockErr T env r st ea .endif (cmdEndif ea st) := by
  split_shape h <;> first | (intro hn; cases hn; done) | (intro _; rfl)
theorem err_endwhile (h : st.OK) : BlockErr T env r st ea .endwhile (cmdEndwhile ea st) := by
  split_shape h <;> first | (intro hn; cases hn; done) | (intro _; rfl)
theorem err_endfor (h : st.OK) : BlockErr T env r st ea .endfor (cmdEndfor ea st) := by
  split_shape h <;> first | (intro hn; cases hn; done) | (intro _; rfl)
theorem err_endfunction (h : st.OK) : BlockErr T env r st ea .endfunction (cmdEndfunction ea st) := by
  split_shape h <;> first | (intro hn; cases hn; done) | (intro _; rfl)
theorem err_catch (h : st.OK) : BlockErr T env r st ea .catch_ (cmdCatch ea st) := by
  split_shape h <;> first | (intro hn; cases hn; done) | (intro _; rfl)
theorem err_finally (h : st.OK) : BlockErr T env r st ea .finally_ (cmdFinally ea st) := by
  split_shape h <;> first | (intro hn; cases hn; done) | (intro _; rfl)
theorem err_endtry (h : st.OK) : BlockErr T env r st ea .endtry (cmdEndtry ea st) := by
  split_shape h <;> first | (intro hn; cases hn; done) | (intro _; rfl)

end

/-! ### Arguments of commands with a parser of their own -/

/-- After a bang. -/
def afterBang (r : List Cell) : List Cell := if headSym r = .ch '!' then r.tail else r

/-- Where the arguments start: after a bang and blanks. -/
def argStart (r : List Cell) : List Cell := (spanS iswhite (afterBang r)).2

theorem plain_names {c : Cmd} {h : Handler} (hk : Known c) (hd : dispatch c.parser = some h)
    (hn : h ≠ .common) : c.name ≠ cs!"!" ∧ c.name ≠ cs!"substitute" ∧ c.name ≠ cs!"smagic" ∧
      c.name ≠ cs!"snomagic" ∧ c.has .USERCMD = false := by
  have h1 : ∀ c ∈ builtinCommands ++ neovimAdditionalCommands, dispatch c.parser ≠ some .common →
      c.name ≠ cs!"!" ∧ c.name ≠ cs!"substitute" ∧ c.name ≠ cs!"smagic" ∧
      c.name ≠ cs!"snomagic" ∧ c.has .USERCMD = false := by
    decide +kernel
  have hn' : dispatch c.parser ≠ some .common := by
    rw [hd]
    simpa using hn
  rcases hk with h | h | ⟨_, h⟩
  · exact h1 c (List.mem_append_left _ h) hn'
  · exact h1 c (List.mem_append_right _ h) hn'
  · rw [h] at hn'
    exact absurd (by decide +kernel : dispatch cs!"parse_cmd_usercmd" = some .common) hn'

theorem parseBang_run {T : Env → List Cell → Res Token} {env : Env} {r : List Cell} {c : Cmd}
    (h : c.name ≠ cs!"substitute" ∧ c.name ≠ cs!"smagic" ∧ c.name ≠ cs!"snomagic") :
    (parseBang c).runWith T env r = .ok (decide (headSym r = .ch '!')) (afterBang r) := by
  unfold parseBang
  have e : (peekn 1).runWith T env r = .ok (getnS 1 r).1 r := rfl
  rw [run_ok e]
  unfold afterBang
  by_cases hb : headSym r = .ch '!'
  · rw [if_pos ⟨peek1_ch hb, h⟩, if_pos hb]
    have e1 : (getn 1).runWith T env r = .ok (getnS 1 r).1 (getnS 1 r).2 := rfl
    rw [run_ok e1]
    have e2 : (getnS 1 r).2 = r.tail := by
      rw [reads_drop_eq (getnS_reads 1 r), peek1_ch hb]
      cases r <;> rfl
    rw [e2, decide_eq_true hb]
    rfl
  · rw [if_neg, if_neg hb, decide_eq_false hb]
    · rfl
    · rintro ⟨h1, _⟩
      have := getnS_reads 1 r
      rw [h1] at this
      exact hb this.head

theorem parseCommandArgs_bang {T : Env → List Cell → Res Token} {env : Env} {r : List Cell} {c : Cmd} {ea : ExArg}
    {st : PState} {h : Handler} (hk : Known c) (hd : dispatch c.parser = some h) (hn : h ≠ .common)
    (hb : headSym r = .ch '!') (hc : c.has .BANG = false) :
    (parseCommandArgs ea c st).runWith T env r = .fail (.err cs!"E477: No ! allowed" ea.cmdpos) := by
  obtain ⟨n1, n2, n3, n4, n5⟩ := plain_names hk hd hn
  unfold parseCommandArgs
  rw [run_ok (parseBang_run ⟨n2, n3, n4⟩), if_pos]
  · rfl
  · rw [hc, n5, decide_eq_true hb]
    rfl

theorem parseCommandArgs_run {T : Env → List Cell → Res Token} {env : Env} {r : List Cell} {c : Cmd} {ea : ExArg}
    {st : PState} {h : Handler} (hk : Known c) (hd : dispatch c.parser = some h) (hn : h ≠ .common)
    (hb : headSym r = .ch '!' → c.has .BANG = true) :
    ∃ ea' : ExArg, ea'.cmdpos = ea.cmdpos ∧
      (parseCommandArgs ea c st).runWith T env r = (runHandler h ea' c st).runWith T env (argStart r) := by
  obtain ⟨n1, n2, n3, n4, n5⟩ := plain_names hk hd hn
  obtain ⟨p1, p2, p3, p4, p5⟩ := plain_args hk hd hn
  unfold parseCommandArgs
  rw [run_ok (parseBang_run ⟨n2, n3, n4⟩), if_neg]
  · let fi := decide (headSym r = .ch '!')
    refine ⟨{ ea with cmd := some c, forceit := fi, argpos := some (posOf env (argStart r)) }, rfl, ?_⟩
    rw [if_pos n1]
    have e1 : skipWhite.runWith T env (afterBang r) = .ok () (argStart r) := rfl
    rw [run_ok e1, run_ok (getpos_run _)]
    have e2 : ∀ ea, (parseWrite ea c).runWith T env (argStart r) = .ok ea (argStart r) := by
      intro ea
      unfold parseWrite
      rw [if_neg]
      · rfl
      · rintro (h | h) <;> exact p2 (by rw [h]; simp)
    have e3 : ∀ ea, (parseRead ea c).runWith T env (argStart r) = .ok ea (argStart r) := by
      intro ea
      unfold parseRead
      rw [if_neg p3]
      rfl
    have e4 : ∀ ea, (parseShift ea c).runWith T env (argStart r) = .ok ea (argStart r) := by
      intro ea
      unfold parseShift
      rw [if_neg]
      · rfl
      · rintro (h | h) <;> exact p4 (by rw [h]; simp)
    simp only [p1, p5, hd]
    simp only [Bool.false_eq_true, Bool.false_and, if_false, Prog.pure_b]
    rw [run_ok (e2 _), run_ok (e3 _), run_ok (e4 _)]
  · intro hx
    simp only [Bool.and_eq_true, Bool.not_eq_true', decide_eq_true_eq] at hx
    rw [hb hx.1.2] at hx
    exact absurd hx.1.1 (by simp)

/-! ### Handlers -/

/-- The block command a handler parses. -/
def Handler.blk : Handler → Option Blk
  | .function => some .function
  | .endfunction => some .endfunction
  | .if_ => some .if_
  | .elseif => some .elseif
  | .else_ => some .else_
  | .endif => some .endif
  | .while_ => some .while_
  | .endwhile => some .endwhile
  | .for_ => some .for_
  | .endfor => some .endfor
  | .try_ => some .try_
  | .catch_ => some .catch_
  | .finally_ => some .finally_
  | .endtry => some .endtry
  | _ => none

def allBlks : List Blk := [.function, .endfunction, .if_, .elseif, .else_, .endif, .while_, .endwhile, .for_, .endfor,
  .try_, .catch_, .finally_, .endtry]

theorem mem_allBlks (b : Blk) : b ∈ allBlks := by cases b <;> decide

theorem handler_blk {c : Cmd} {h : Handler} {b : Blk} (hk : Known c) (hd : dispatch c.parser = some h) :
    h.blk = some b ↔ c.name = b.name := by
  have h1 : ∀ c ∈ builtinCommands ++ neovimAdditionalCommands, ∀ b ∈ allBlks,
      (dispatch c.parser).bind Handler.blk = some b ↔ c.name = b.name := by
    decide +kernel
  have h2 : h.blk = (dispatch c.parser).bind Handler.blk := by rw [hd]; rfl
  rw [h2]
  rcases hk with h | h | ⟨hu, h⟩
  · exact h1 c (List.mem_append_left _ h) b (mem_allBlks b)
  · exact h1 c (List.mem_append_right _ h) b (mem_allBlks b)
  · have h3 : c.parser = cs!"parse_cmd_usercmd" := by rw [h]
    have h4 : (dispatch cs!"parse_cmd_usercmd").bind Handler.blk = none := by decide +kernel
    rw [h3, h4]
    refine ⟨(nomatch ·), fun hn => ?_⟩
    rw [hn] at hu
    cases b <;> exact absurd hu (by decide)

theorem blk_no_bang {c : Cmd} {b : Blk} (hk : Known c) (hc : c.name = b.name) : c.has .BANG = decide (b = .function) := by
  have h1 : ∀ c ∈ builtinCommands ++ neovimAdditionalCommands, ∀ b ∈ allBlks,
      c.name = b.name → c.has .BANG = decide (b = .function) := by
    decide +kernel
  rcases hk with h | h | ⟨hu, h⟩
  · exact h1 c (List.mem_append_left _ h) b (mem_allBlks b) hc
  · exact h1 c (List.mem_append_right _ h) b (mem_allBlks b) hc
  · rw [hc] at hu
    cases b <;> exact absurd hu (by decide)

section
variable {st : PState} {ea : ExArg} {cmd : Cmd}

theorem ens_handler {h : Handler} {b : Blk} (ho : st.OK) (hb : h.blk = some b) (hf : h ≠ .function) :
    Ens (runHandler h ea cmd st) fun s => bstep st.opn b = some s.opn := by
  cases h <;> cases hb
  case function => exact absurd rfl hf
  case endfunction => exact ens_endfunction ho
  case if_ => exact ens_if
  case elseif => exact ens_elseif ho
  case else_ => exact ens_else ho
  case endif => exact ens_endif ho
  case while_ => exact ens_while
  case endwhile => exact ens_endwhile ho
  case for_ => exact ens_for
  case endfor => exact ens_endfor ho
  case try_ => exact ens_try
  case catch_ => exact ens_catch ho
  case finally_ => exact ens_finally ho
  case endtry => exact ens_endtry ho

theorem keeps_handler {h : Handler} (hb : h.blk = none) : Keeps st (runHandler h ea cmd st) := by
  cases h <;> cases hb
  case append => exact keeps_cmdAppend st ea
  case break_ => exact keeps_cmdBreak st ea
  case call => exact keeps_cmdCall st ea
  case common => exact keeps_cmdCommon st ea cmd
  case continue_ => exact keeps_cmdContinue st ea
  case delfunction => exact keeps_cmdDelfunction st ea
  case echo => exact keeps_cmdEcho st ea _
  case echoerr => exact keeps_cmdEcho st ea _
  case echohl => exact keeps_cmdEchohl st ea
  case echomsg => exact keeps_cmdEcho st ea _
  case echon => exact keeps_cmdEcho st ea _
  case execute => exact keeps_cmdExecute st ea
  case finish => exact keeps_cmdFinish st ea cmd
  case let_ => exact keeps_cmdLet st ea cmd
  case const_ => exact keeps_cmdConst st ea cmd
  case loadkeymap => exact keeps_cmdLoadkeymap st ea
  case lockvar => exact keeps_cmdLockvar st ea
  case lua => exact keeps_cmdLua st ea
  case modifierRange => exact keeps_cmdModifierRange st ea
  case return_ => exact keeps_cmdReturn st ea
  case throw => exact keeps_cmdThrow st ea
  case eval => exact keeps_cmdEval st ea
  case unlet => exact keeps_cmdUnlet st ea
  case unlockvar => exact keeps_cmdUnlockvar st ea
  case wincmd => exact keeps_cmdWincmd st ea
  case «syntax» => exact keeps_cmdSyntax st ea

theorem err_handler {T : Env → List Cell → Res Token} {env : Env} {r : List Cell} {h : Handler} {b : Blk} (ho : st.OK)
    (hb : h.blk = some b) : BlockErr T env r st ea b (runHandler h ea cmd st) := by
  cases h <;> cases hb
  case function => intro h; cases hs : st.opn <;> rw [hs] at h <;> cases h
  case endfunction => exact err_endfunction ho
  case if_ => intro h; cases hs : st.opn <;> rw [hs] at h <;> cases h
  case elseif => exact err_elseif ho
  case else_ => exact err_else ho
  case endif => exact err_endif ho
  case while_ => intro h; cases hs : st.opn <;> rw [hs] at h <;> cases h
  case endwhile => exact err_endwhile ho
  case for_ => intro h; cases hs : st.opn <;> rw [hs] at h <;> cases h
  case endfor => exact err_endfor ho
  case try_ => intro h; cases hs : st.opn <;> rw [hs] at h <;> cases h
  case catch_ => exact err_catch ho
  case finally_ => exact err_finally ho
  case endtry => exact err_endtry ho

end

/-- What follows the name of `:function` is the start of a definition and not a name or pattern to list: after a bang
and blanks there is the name of a function, and after blanks `(`.  (Names are given by the parser for them.) -/
def Defines (env : Env) (rn : List Cell) : Prop :=
  endsSym (headSym (argStart rn)) = false ∧ headSym (argStart rn) ≠ .ch '/' ∧
  ∃ l r1, parseLvalueFunc.run env (argStart rn) = .ok l r1 ∧ headSym (spanS iswhite r1).2 = .ch '('

theorem spanS_idem (f : Char → Bool) (r : List Cell) : (spanS f (spanS f r).2).2 = (spanS f r).2 := by
  cases h : headSym (spanS f r).2 with
  | ch c => rw [spanS_not h (spanS_stop f r c h)]
  | eol =>
    have := spanS_of_reads (f := f) (Reads.nil (spanS f r).2) (by simp) (by rw [h]; rfl)
    rw [this]
  | eof =>
    have := spanS_of_reads (f := f) (Reads.nil (spanS f r).2) (by simp) (by rw [h]; rfl)
    rw [this]

theorem ens_run {α : Type} {m : Prog α} {Q : α → Prop} {T : Env → List Cell → Res Token} {env : Env}
    {r r' : List Cell} {a : α} (h : Ens m Q) (hr : m.runWith T env r = .ok a r') : Q a := h _ _ _ _ _ hr

theorem cmdFunction_opn {env : Env} {st st' : PState} {ea : ExArg} {cmd : Cmd} {rn r' : List Cell}
    (h : (cmdFunction ea cmd st).runWith tokGet env (argStart rn) = .ok st' r') :
    (Defines env rn → st'.opn = .function :: st.opn) ∧ (¬ Defines env rn → st'.opn = st.opn) := by
  have hcommon : ∀ r, (cmdCommon ea cmd st).runWith tokGet env r = .ok st' r' → st'.opn = st.opn :=
    fun r h => ens_run (Q := fun s => s.opn = st.opn) (keeps_cmdCommon st ea cmd) h
  unfold cmdFunction at h
  have e0 : tell.runWith tokGet env (argStart rn) = .ok (argStart rn) (argStart rn) := rfl
  have e1 : skipWhite.runWith tokGet env (argStart rn) = .ok () (argStart rn) :=
    congrArg (Res.ok ()) (spanS_idem iswhite (afterBang rn))
  have e2 : ∀ r, (seekSet (argStart rn)).runWith tokGet env r = .ok () (argStart rn) := fun _ => rfl
  have e3 : (peekn 1).runWith tokGet env (argStart rn) = .ok (getnS 1 (argStart rn)).1 (argStart rn) := rfl
  rw [run_ok e0, run_ok e1, run_ok (peek_run _)] at h
  split at h
  · rename_i hs
    rw [run_ok (e2 _)] at h
    exact ⟨fun hd => absurd hs (by rw [hd.1]; simp), fun _ => hcommon _ h⟩
  · rename_i hs
    rw [run_ok e3] at h
    split at h
    · rename_i hp
      rw [run_ok (e2 _)] at h
      refine ⟨fun hd => absurd ?_ hd.2.1, fun _ => hcommon _ h⟩
      have := getnS_reads 1 (argStart rn)
      rw [hp] at this
      exact this.head
    · rename_i hp
      have hp' : headSym (argStart rn) ≠ .ch '/' := fun h => hp (peek1_ch h)
      cases hl : parseLvalueFunc.runWith tokGet env (argStart rn) with
      | fail e => rw [run_err hl] at h; cases h
      | ok left r1 =>
        have e4 : skipWhite.runWith tokGet env r1 = .ok () (spanS iswhite r1).2 := rfl
        rw [run_ok hl, run_ok e4] at h
        cases hc : checkFuncName left with
        | none => simp only [hc] at h; cases h
        | some o =>
          cases o with
          | some msg => simp only [hc] at h; cases h
          | none =>
            simp only [hc] at h
            have e5 : (peekn 1).runWith tokGet env (spanS iswhite r1).2 =
              .ok (getnS 1 (spanS iswhite r1).2).1 (spanS iswhite r1).2 := rfl
            rw [run_ok e5] at h
            split at h
            · rename_i hq
              rw [run_ok (e2 _)] at h
              refine ⟨fun hd => ?_, fun _ => hcommon _ h⟩
              obtain ⟨_, _, l, r2, h1, h2⟩ := hd
              rw [Prog.run, hl] at h1
              cases h1
              exact absurd (peek1_ch h2) hq
            · rename_i hq
              have hq' : headSym (spanS iswhite r1).2 = .ch '(' := by
                have := getnS_reads 1 (spanS iswhite r1).2
                rw [Decidable.not_not.1 hq] at this
                exact this.head
              refine ⟨fun _ => ?_, fun hd => absurd ⟨by simpa using hs, hp', left, r1, hl, hq'⟩ hd⟩
              exact ens_run (m := getn 1 >>= fun _ => parseParams >>= fun ps => parseFuncAttrs >>= fun attr =>
                pure (st.push (.function ea.cmdpos ea left ps.rlist ps.defaults attr)))
                (Q := fun s => s.opn = .function :: st.opn)
                (Ens.bind fun _ => Ens.bind fun _ => Ens.bind fun _ => Ens.pure rfl) h

/-! ### Commands -/

theorem parseCommand_empty {T : Env → List Cell → Res Token} {env : Env} {st st' : PState} {ea : ExArg} {r r' : List Cell}
    (hn : ¬ HasName (skipWC r)) (h : (parseCommand ea st).runWith T env r = .ok st' r') : st'.opn = st.opn := by
  have hc : (getnS 1 (skipWC r)).1 = [] ∨ (getnS 1 (skipWC r)).1 = cs!"\"" := by
    refine Classical.byContradiction fun hx => hn ⟨fun h => hx (.inl h), fun h => hx (.inr h)⟩
  unfold parseCommand at h
  have f1 : skipWhiteAndColon.runWith T env r = .ok () (skipWC r) := rfl
  have f2 : (peekn 1).runWith T env (skipWC r) = .ok (getnS 1 (skipWC r)).1 (skipWC r) := rfl
  rw [run_ok f1, run_ok (getpos_run _), run_ok f2, if_pos hc] at h
  refine ens_run (Q := fun s => s.opn = st.opn) (Ens.ite (fun _ => ?_) (fun _ => Ens.pure rfl)) h
  exact keeps_cmdModifierRange st _

theorem parseCommand_found {T : Env → List Cell → Res Token} {env : Env} {st : PState} {ea : ExArg} {r rn : List Cell}
    {c : Cmd} {cc : List (Str × Option Cmd)} (hn : HasName (skipWC r))
    (hf : (findCommand st.neovim st.cache).runWith T env (skipWC r) = .ok (some c, cc) rn) :
    (parseCommand ea st).runWith T env r =
      (parseCommandArgs { ea with cmdpos := posOf env (skipWC r) } c { st with cache := cc }).runWith T env rn := by
  have hc : ¬ ((getnS 1 (skipWC r)).1 = [] ∨ (getnS 1 (skipWC r)).1 = cs!"\"") := by
    rintro (h | h)
    · exact hn.1 h
    · exact hn.2 h
  unfold parseCommand
  have f1 : skipWhiteAndColon.runWith T env r = .ok () (skipWC r) := rfl
  have f2 : (peekn 1).runWith T env (skipWC r) = .ok (getnS 1 (skipWC r)).1 (skipWC r) := rfl
  rw [run_ok f1, run_ok (getpos_run _), run_ok f2, if_neg hc, run_ok hf]

theorem bind_run {α β : Type} {T : Env → List Cell → Res Token} {env : Env} {m : Prog α} {f : α → Prog β}
    {r r' : List Cell} {b : β} (h : (m >>= f).runWith T env r = .ok b r') :
    ∃ a r1, m.runWith T env r = .ok a r1 ∧ (f a).runWith T env r1 = .ok b r' := by
  rw [runWith_bind] at h
  cases hm : m.runWith T env r with
  | fail e => rw [hm] at h; cases h
  | ok a r1 => rw [hm] at h; exact ⟨a, r1, rfl, h⟩

/-- Runs of the command parser: the blocks stay as they are, or a command is found. -/
theorem parseOneCmd_ok {env : Env} {st st' : PState} {r r' : List Cell} (ho : st.OK)
    (h : (parseOneCmd st).run env r = .ok st' r') :
    (st'.opn = st.opn ∧ ¬ ∃ rc, CmdPlace env r rc) ∨
    ∃ rc c cc rn ea s1 r1, CmdPlace env r rc ∧ (findCommand st.neovim st.cache).run env rc = .ok (some c, cc) rn ∧
      (parseCommandArgs ea c { st with cache := cc }).runWith tokGet env rn = .ok s1 r1 ∧ st'.opn = s1.opn := by
  unfold parseOneCmd Prog.run at h
  have e0 : (peekn 2).runWith tokGet env r = .ok (getnS 2 r).1 r := rfl
  have e1 : skipWhiteAndColon.runWith tokGet env r = .ok () (skipWC r) := rfl
  have e2 : (peekn 1).runWith tokGet env (skipWC r) = .ok (getnS 1 (skipWC r)).1 (skipWC r) := rfl
  rw [run_ok e0] at h
  split at h
  · rename_i h0
    refine .inl ⟨?_, fun ⟨_, hp⟩ => hp.1 h0⟩
    exact ens_run (m := getline >>= fun _ => get >>= fun _ => pure st) (Q := fun s => s.opn = st.opn)
      (Ens.bind fun _ => Ens.bind fun _ => Ens.pure rfl) h
  rename_i h0
  rw [run_ok e1, run_ok e2] at h
  split at h
  · rename_i h1
    refine .inl ⟨?_, fun ⟨_, hp⟩ => hp.2.1.1 h1⟩
    exact ens_run (m := get >>= fun _ => pure st) (Q := fun s => s.opn = st.opn) (Ens.bind fun _ => Ens.pure rfl) h
  rename_i h1
  split at h
  · rename_i h2
    refine .inl ⟨?_, fun ⟨_, hp⟩ => hp.2.1.2 h2⟩
    exact ens_run (m := parseComment st >>= fun s => get >>= fun _ => pure s) (Q := fun s => s.opn = st.opn)
      (Ens.bind' (keeps_parseComment st) fun s hs => Ens.bind fun _ => Ens.pure hs) h
  rename_i h2
  rw [run_ok (getpos_run _)] at h
  obtain ⟨ms, r1, hm, h⟩ := bind_run h
  obtain ⟨rg, r2, hg, h⟩ := bind_run h
  obtain ⟨s1, r3, hp, h⟩ := bind_run h
  have ht := ens_run (Q := fun x => x.opn = s1.opn) (keeps_parseTrail s1) h
  by_cases hn : HasName (skipWC r2)
  · obtain ⟨c, cc, rn, hf, _⟩ := findCommand_total (T := tokGet) (env := env) (skipWC r2) ho.cache
    refine .inr ?_
    cases c with
    | none =>
      exfalso
      unfold parseCommand at hp
      have f1 : skipWhiteAndColon.runWith tokGet env r2 = .ok () (skipWC r2) := rfl
      have f2 : (peekn 1).runWith tokGet env (skipWC r2) = .ok (getnS 1 (skipWC r2)).1 (skipWC r2) := rfl
      have hc : ¬ ((getnS 1 (skipWC r2)).1 = [] ∨ (getnS 1 (skipWC r2)).1 = cs!"\"") := by
        rintro (h | h)
        · exact hn.1 h
        · exact hn.2 h
      rw [run_ok f1, run_ok (getpos_run _), run_ok f2, if_neg hc, run_ok hf] at hp
      obtain ⟨_, _, _, hp⟩ := bind_run hp
      obtain ⟨_, _, _, hp⟩ := bind_run hp
      cases hp
    | some c =>
      rw [parseCommand_found hn hf] at hp
      exact ⟨_, c, cc, rn, _, s1, r3, ⟨h0, ⟨h1, h2⟩, ms, r1, rg, r2, hm, hg, rfl, hn⟩, hf, hp, ht⟩
  · refine .inl ⟨ht.trans (parseCommand_empty hn hp), ?_⟩
    rintro ⟨rc, _, _, ms', r1', rg', r2', a1, a2, rfl, a3⟩
    rw [Prog.run, hm] at a1
    cases a1
    rw [Prog.run, hg] at a2
    cases a2
    exact hn a3

/-- Failures of commands. -/
theorem parseOneCmd_fail {env : Env} {st : PState} {r rc rn : List Cell} {c : Cmd} {cc : List (Str × Option Cmd)}
    {e : Fail} (hp : CmdPlace env r rc) (hf : (findCommand st.neovim st.cache).run env rc = .ok (some c, cc) rn)
    (h : ∀ ea : ExArg, ea.cmdpos = posOf env rc →
      (parseCommandArgs ea c { st with cache := cc }).runWith tokGet env rn = .fail e) :
    (parseOneCmd st).run env r = .fail e := by
  obtain ⟨h0, ⟨h1, h2⟩, ms, r1, rg, r2, hm, hg, rfl, hn⟩ := hp
  unfold parseOneCmd Prog.run
  have e0 : (peekn 2).runWith tokGet env r = .ok (getnS 2 r).1 r := rfl
  have e1 : skipWhiteAndColon.runWith tokGet env r = .ok () (skipWC r) := rfl
  have e2 : (peekn 1).runWith tokGet env (skipWC r) = .ok (getnS 1 (skipWC r)).1 (skipWC r) := rfl
  rw [run_ok e0, if_neg h0, run_ok e1, run_ok e2, if_neg h1, if_neg h2, run_ok (getpos_run _), run_ok hm, run_ok hg]
  apply run_err
  rw [parseCommand_found hn hf]
  exact h _ rfl

/-- Success of commands. -/
theorem parseOneCmd_succ {env : Env} {st : PState} {r rc rn : List Cell} {c : Cmd} {cc : List (Str × Option Cmd)}
    (hp : CmdPlace env r rc) (hf : (findCommand st.neovim st.cache).run env rc = .ok (some c, cc) rn)
    {re : List Cell} (h : ∀ ea : ExArg, ea.cmdpos = posOf env rc →
      ∃ s1 r1 s2, (parseCommandArgs ea c { st with cache := cc }).runWith tokGet env rn = .ok s1 r1 ∧
        (parseTrail s1).runWith tokGet env r1 = .ok s2 re) :
    ∃ s2, (parseOneCmd st).run env r = .ok s2 re := by
  obtain ⟨h0, ⟨h1, h2⟩, ms, r1, rg, r2, hm, hg, rfl, hn⟩ := hp
  unfold parseOneCmd Prog.run
  have e0 : (peekn 2).runWith tokGet env r = .ok (getnS 2 r).1 r := rfl
  have e1 : skipWhiteAndColon.runWith tokGet env r = .ok () (skipWC r) := rfl
  have e2 : (peekn 1).runWith tokGet env (skipWC r) = .ok (getnS 1 (skipWC r)).1 (skipWC r) := rfl
  rw [run_ok e0, if_neg h0, run_ok e1, run_ok e2, if_neg h1, if_neg h2, run_ok (getpos_run _), run_ok hm, run_ok hg]
  have key := fun ea : ExArg => h { ea with cmdpos := posOf env (skipWC r2) } rfl
  obtain ⟨s1, r1, s2, a1, a2⟩ := key { linepos := posOf env (skipWC r), modifiers := ms, range := rg }
  refine ⟨s2, ?_⟩
  rw [runWith_bind, parseCommand_found hn hf, a1]
  exact a2

/-! ### Arguments of block commands -/

/-- The arguments of a block command are well formed: `rn` is the rest of the file after the name, `r` after the
arguments.  Expressions, targets, patterns, names and parameters are given by their parsers. -/
inductive BlockArgs (env : Env) : Blk → List Cell → List Cell → Prop
  | bare {b : Blk} {rn : List Cell} : b ∈ [.else_, .endif, .endwhile, .endfor, .try_, .finally_, .endtry] →
      BlockArgs env b rn (argStart rn)
  | endfunction {rn r : List Cell} {s : Str} : Reads (argStart rn) s r → AtEnd r → BlockArgs env .endfunction rn r
  | cond {b : Blk} {rn r : List Cell} {e : VExpr} : b ∈ [.if_, .elseif, .while_] →
      parseExpr1.run env (argStart rn) = .ok e r → BlockArgs env b rn r
  | for_ {rn r1 r2 r : List Cell} {l : Lhs} {e : VExpr} : parseLetlhs.run env (argStart rn) = .ok l r1 →
      Reads (spanS iswhite r1).2 cs!"in" r2 → (headSym r2).is isalpha = false → parseExpr1.run env r2 = .ok e r →
      BlockArgs env .for_ rn r
  | catchAll {rn : List Cell} : endsSym (headSym (argStart rn)) = true → BlockArgs env .catch_ rn (argStart rn)
  | catch_ {rn r1 r : List Cell} {c : Char} {x : Str × Str} : Reads (argStart rn) [c] r1 → endsSym (.ch c) = false →
      (parsePattern [c]).run env r1 = .ok x r → BlockArgs env .catch_ rn r
  | function {rn r1 r2 r3 r : List Cell} {l : VExpr} {ps : ParamSt} {at_ : FuncAttr} :
      endsSym (headSym (argStart rn)) = false → headSym (argStart rn) ≠ .ch '/' →
      parseLvalueFunc.run env (argStart rn) = .ok l r1 → checkFuncName l = some none →
      Reads (spanS iswhite r1).2 ['('] r2 → parseParams.run env r2 = .ok ps r3 →
      parseFuncAttrs.run env r3 = .ok at_ r → BlockArgs env .function rn r

section
variable {env : Env} {st : PState} {ea : ExArg} {cmd : Cmd} {rn r : List Cell}

theorem get_run (r : List Cell) : get.runWith tokGet env r = .ok (headSym r) r.tail := by cases r <;> rfl

/-- What follows the arguments: the end of the line, a comment, a bar, or the end of the file. -/
def afterTrail (r : List Cell) : List Cell :=
  let r := (spanS iswhite r).2
  if headSym r = .ch '"' then (spanS (fun _ => true) r.tail).2.tail else r.tail

theorem parseTrail_run (h : endsSym (headSym (spanS iswhite r).2) = true) :
    ∃ s', (parseTrail st).runWith tokGet env r = .ok s' (afterTrail r) := by
  unfold parseTrail afterTrail
  have e1 : skipWhite.runWith tokGet env r = .ok () (spanS iswhite r).2 := rfl
  rw [run_ok e1, run_ok (peek_run _)]
  generalize (spanS iswhite r).2 = r1 at *
  cases hs : headSym r1 with
  | eof =>
    obtain rfl := headSym_eof hs
    exact ⟨_, rfl⟩
  | eol =>
    rw [if_neg (by simp), if_pos rfl, run_ok (get_run _)]
    exact ⟨st, congrArg _ (by simp [hs])⟩
  | ch c =>
    rw [hs] at h
    simp only [endsSym, Bool.or_eq_true, beq_iff_eq] at h
    rcases h with rfl | rfl
    · rw [if_neg (by simp), if_neg (by simp), if_pos rfl, run_ok (get_run _)]
      exact ⟨st, congrArg _ (by simp [hs])⟩
    rw [if_neg (by simp), if_neg (by simp), if_neg (by simp), if_pos rfl]
    have hc : (parseComment st).runWith tokGet env r1 = .ok (st.add (.comment (posOf env r1) (lineS r1.tail)))
        (spanS (fun _ => true) r1.tail).2 := by
      unfold parseComment
      rw [run_ok (getpos_run _), run_ok (get_run _), if_neg (by rw [hs]; simp)]
      rfl
    rw [run_ok hc, run_ok (get_run _)]
    exact ⟨_, congrArg (Res.ok (st.add (.comment (posOf env r1) (lineS r1.tail)))) (by simp [hs])⟩

theorem handler_run {h : Handler} {b : Blk} (ho : st.OK) (hb : h.blk = some b) (hv : bstep st.opn b ≠ none)
    (ha : BlockArgs env b rn r) : ∃ s1, (runHandler h ea cmd st).runWith tokGet env (argStart rn) = .ok s1 r := by
  cases ha with
  | bare hm =>
    simp only [List.mem_cons, List.not_mem_nil, or_false] at hm
    rcases hm with rfl | rfl | rfl | rfl | rfl | rfl | rfl <;> cases h <;> cases hb <;> revert hv <;>
      split_shape ho <;> first | exact ⟨_, rfl⟩ | (rename_i hv; exact absurd rfl hv)
  | @endfunction _ _ s h1 h2 =>
    cases h <;> cases hb
    have e : getline.runWith tokGet env (argStart rn) = .ok s r := by
      have := spanTrue_of_reads h1 h2
      show Res.ok (spanS (fun _ => true) (argStart rn)).1 (spanS (fun _ => true) (argStart rn)).2 = _
      rw [this]
    revert hv
    split_shape ho <;> first
      | (rename_i hv; exact absurd rfl hv)
      | exact ⟨_, (show (getline >>= fun _ => pure _).runWith tokGet env (argStart rn) = _ from run_ok e)⟩
  | cond hm he =>
    have he' : parseExpr1.runWith tokGet env (argStart rn) = .ok _ r := he
    simp only [List.mem_cons, List.not_mem_nil, or_false] at hm
    rcases hm with rfl | rfl | rfl <;> cases h <;> cases hb
    · exact ⟨_, run_ok he'⟩
    · revert hv
      split_shape ho <;> first
        | (rename_i hv; exact absurd rfl hv)
        | exact ⟨_, (show (parseExpr1 >>= fun e => pure (PState.push _ (Head.elseif ea.cmdpos ea e))).runWith tokGet env
            (argStart rn) = _ from run_ok he')⟩
    · exact ⟨_, run_ok he'⟩
  | for_ h1 h2 h3 h4 =>
    cases h <;> cases hb
    have e1 : parseLetlhs.runWith tokGet env (argStart rn) = .ok _ _ := h1
    have e2 : ∀ r, skipWhite.runWith tokGet env r = .ok () (spanS iswhite r).2 := fun _ => rfl
    have e3 := spanS_of_reads (f := isalpha) h2 (by decide) h3
    have e4 : parseExpr1.runWith tokGet env _ = .ok _ r := h4
    show ∃ s1, (cmdFor ea st).runWith tokGet env (argStart rn) = .ok s1 r
    unfold cmdFor
    rw [run_ok e1, run_ok (e2 _), run_ok (getpos_run _)]
    have e5 : readAlpha.runWith tokGet env _ = .ok cs!"in" _ :=
      (show Res.ok (spanS isalpha _).1 (spanS isalpha _).2 = _ by rw [e3])
    rw [run_ok e5, if_neg (by simp), run_ok e4]
    exact ⟨_, rfl⟩
  | catchAll h1 =>
    cases h <;> cases hb
    have e1 : skipWhite.runWith tokGet env (argStart rn) = .ok () (argStart rn) :=
      congrArg (Res.ok ()) (spanS_idem iswhite (afterBang rn))
    have key : ∀ st : PState, (skipWhite >>= fun _ => peek >>= fun x => if (!endsSym x) = true then
          (get >>= fun c => parsePattern c.str >>= fun r => pure (PState.push st (.catch_ ea.cmdpos ea r.1)))
          else pure (PState.push st (.catch_ ea.cmdpos ea []))).runWith tokGet env (argStart rn) =
        .ok (st.push (.catch_ ea.cmdpos ea [])) (argStart rn) := by
      intro st
      rw [run_ok e1, run_ok (peek_run _), if_neg (by rw [h1]; simp)]
      rfl
    revert hv
    split_shape ho <;> first
      | (rename_i hv; exact absurd rfl hv)
      | exact ⟨_, key _⟩
  | @catch_ _ r1 _ c x h1 h2 h3 =>
    cases h <;> cases hb
    have e1 : skipWhite.runWith tokGet env (argStart rn) = .ok () (argStart rn) :=
      congrArg (Res.ok ()) (spanS_idem iswhite (afterBang rn))
    have e2 : get.runWith tokGet env (argStart rn) = .ok (.ch c) r1 := by
      obtain ⟨q, r2, e, h4⟩ := h1.cons_inv
      rw [e, h4.nil_inv]
      rfl
    have e3 : (parsePattern (Sym.ch c).str).runWith tokGet env r1 = .ok x r := h3
    have key : ∀ st : PState, (skipWhite >>= fun _ => peek >>= fun x => if (!endsSym x) = true then
          (get >>= fun c => parsePattern c.str >>= fun r => pure (PState.push st (.catch_ ea.cmdpos ea r.1)))
          else pure (PState.push st (.catch_ ea.cmdpos ea []))).runWith tokGet env (argStart rn) =
        .ok (st.push (.catch_ ea.cmdpos ea x.1)) r := by
      intro st
      rw [run_ok e1, run_ok (peek_run _), if_pos (by rw [h1.head, h2]; rfl), run_ok e2, run_ok e3]
      rfl
    revert hv
    split_shape ho <;> first
      | (rename_i hv; exact absurd rfl hv)
      | exact ⟨_, key _⟩
  | @function _ r1 r2 r3 _ l ps at_ h1 h2 h3 h4 h5 h6 h7 =>
    cases h <;> cases hb
    show ∃ s1, (cmdFunction ea cmd st).runWith tokGet env (argStart rn) = .ok s1 r
    unfold cmdFunction
    have e0 : tell.runWith tokGet env (argStart rn) = .ok (argStart rn) (argStart rn) := rfl
    have e1 : skipWhite.runWith tokGet env (argStart rn) = .ok () (argStart rn) :=
      congrArg (Res.ok ()) (spanS_idem iswhite (afterBang rn))
    have e3 : (peekn 1).runWith tokGet env (argStart rn) = .ok (getnS 1 (argStart rn)).1 (argStart rn) := rfl
    have n1 : (getnS 1 (argStart rn)).1 ≠ cs!"/" := by
      intro h
      have := getnS_reads 1 (argStart rn)
      rw [h] at this
      exact h2 this.head
    have e4 : parseLvalueFunc.runWith tokGet env (argStart rn) = .ok l r1 := h3
    have e5 : skipWhite.runWith tokGet env r1 = .ok () (spanS iswhite r1).2 := rfl
    have e6 : (peekn 1).runWith tokGet env (spanS iswhite r1).2 =
      .ok (getnS 1 (spanS iswhite r1).2).1 (spanS iswhite r1).2 := rfl
    have e7 : (getn 1).runWith tokGet env (spanS iswhite r1).2 = .ok ['('] r2 := by
      have := getnS_of_reads h5
      show Res.ok (getnS 1 (spanS iswhite r1).2).1 (getnS 1 (spanS iswhite r1).2).2 = _
      rw [show (1 : Nat) = ['('].length from rfl, this]
    have e8 : parseParams.runWith tokGet env r2 = .ok ps r3 := h6
    have e9 : parseFuncAttrs.runWith tokGet env r3 = .ok at_ r := h7
    rw [run_ok e0, run_ok e1, run_ok (peek_run _), if_neg (by rw [h1]; simp), run_ok e3, if_neg n1, run_ok e4, run_ok e5]
    simp only [h4]
    rw [run_ok e6, if_neg (by rw [peek1_ch h5.head]; simp), run_ok e7, run_ok e8, run_ok e9]
    exact ⟨_, rfl⟩

end

end Viml
