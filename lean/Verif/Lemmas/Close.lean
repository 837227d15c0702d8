/-
Closing the blocks that are open at a place between statements.
-/
import Verif.Lemmas.Place
import Verif.Props.Insert
import Verif.Lemmas.JsonDeep
import Verif.Props.Nest
import Verif.Spec.Close

namespace Viml
open Spec

/-- `Front` with the commands that end the open blocks, innermost first. -/
inductive OpenFront (nv : Bool) (env : Env) (fn : Str) : Ctx → Option Inner → List Str → List Cell → List Str → Prop
  | start : OpenFront nv env fn { top := true } none [] env.buf []
  | lines {cx b used r st ss used' r'} : OpenFront nv env fn cx b used r st → Body nv env fn cx used r ss used' r' →
      OpenFront nv env fn cx b used' r' st
  | function {cx b used r st ea a cm used' r'} : OpenFront nv env fn cx b used r st →
      Spec.Opens nv env fn cs!"function" (FuncArgs env fn) used r ea a cm used' r' →
      OpenFront nv env fn cx.fun (some .function) used' r' (cs!"endfunction" :: st)
  | while_ {cx b used r st ea a cm used' r'} : OpenFront nv env fn cx b used r st →
      Spec.Opens nv env fn cs!"while" (Gram env fn 1) used r ea a cm used' r' →
      OpenFront nv env fn cx.loop (some .while_) used' r' (cs!"endwhile" :: st)
  | for_ {cx b used r st ea a cm used' r'} : OpenFront nv env fn cx b used r st →
      Spec.Opens nv env fn cs!"for" (ForArgs env fn) used r ea a cm used' r' →
      OpenFront nv env fn cx.loop (some .for_) used' r' (cs!"endfor" :: st)
  | if_ {cx b used r st ea a cm used' r'} : OpenFront nv env fn cx b used r st →
      Spec.Opens nv env fn cs!"if" (Gram env fn 1) used r ea a cm used' r' →
      OpenFront nv env fn cx.block (some .if_) used' r' (cs!"endif" :: st)
  | try_ {cx b used r st ea a cm used' r'} : OpenFront nv env fn cx b used r st →
      Spec.Opens nv env fn cs!"try" NoArgs used r ea a cm used' r' →
      OpenFront nv env fn cx.block (some .try_) used' r' (cs!"endtry" :: st)
  | elseif {cx b used r st ea a cm used' r'} : OpenFront nv env fn cx b used r st → ifLike b →
      Spec.Opens nv env fn cs!"elseif" (Gram env fn 1) used r ea a cm used' r' →
      OpenFront nv env fn cx (some .elseif) used' r' st
  | else_ {cx b used r st ea a cm used' r'} : OpenFront nv env fn cx b used r st → ifLike b →
      Spec.Opens nv env fn cs!"else" NoArgs used r ea a cm used' r' →
      OpenFront nv env fn cx (some .else_) used' r' st
  | catch_ {cx b used r st ea a cm used' r'} : OpenFront nv env fn cx b used r st → tryLike b →
      Spec.Opens nv env fn cs!"catch" CatchArg used r ea a cm used' r' →
      OpenFront nv env fn cx (some .catch_) used' r' st
  | finally_ {cx b used r st ea a cm used' r'} : OpenFront nv env fn cx b used r st → tryLike b →
      Spec.Opens nv env fn cs!"finally" NoArgs used r ea a cm used' r' →
      OpenFront nv env fn cx (some .finally_) used' r' st

variable {nv : Bool} {env : Env} {fn : Str} {cx : Ctx} {b : Option Inner} {used used' : List Str} {r r' : List Cell} {st : List Str}

theorem OpenFront.front (h : OpenFront nv env fn cx b used r st) : Front nv env fn cx b used r := by
  induction h with
  | start => exact .start
  | lines _ h ih => exact .lines ih h
  | function _ h ih => exact .function ih h
  | while_ _ h ih => exact .while_ ih h
  | for_ _ h ih => exact .for_ ih h
  | if_ _ h ih => exact .if_ ih h
  | try_ _ h ih => exact .try_ ih h
  | elseif _ hb h ih => exact .elseif ih hb h
  | else_ _ hb h ih => exact .else_ ih hb h
  | catch_ _ hb h ih => exact .catch_ ih hb h
  | finally_ _ hb h ih => exact .finally_ ih hb h

theorem openFront_of (h : Front nv env fn cx b used r) : ∃ st, OpenFront nv env fn cx b used r st := by
  induction h with
  | start => exact ⟨_, .start⟩
  | lines _ h ih => exact ⟨_, .lines ih.choose_spec h⟩
  | function _ h ih => exact ⟨_, .function ih.choose_spec h⟩
  | while_ _ h ih => exact ⟨_, .while_ ih.choose_spec h⟩
  | for_ _ h ih => exact ⟨_, .for_ ih.choose_spec h⟩
  | if_ _ h ih => exact ⟨_, .if_ ih.choose_spec h⟩
  | try_ _ h ih => exact ⟨_, .try_ ih.choose_spec h⟩
  | elseif _ hb h ih => exact ⟨_, .elseif ih.choose_spec hb h⟩
  | else_ _ hb h ih => exact ⟨_, .else_ ih.choose_spec hb h⟩
  | catch_ _ hb h ih => exact ⟨_, .catch_ ih.choose_spec hb h⟩
  | finally_ _ hb h ih => exact ⟨_, .finally_ ih.choose_spec hb h⟩

namespace Fore
variable {lines : List Str} {env' : Env} {ι : Fore lines env' fn}

local notation "E" => mkEnv lines

theorem openFront_before {st : List Str} (h : OpenFront nv E fn cx b used r st) :
    ι.κ.To r → ∃ usedX, OpenFront nv env' fn cx b usedX (ι.κ.tr r) st := by
  induction h with
  | start => exact fun _ => ⟨[], by rw [ι.buf]; exact .start⟩
  | lines h0 h1 ih =>
    intro t'
    have t := from_start (front_suffix h0.front) t' (body_order h1).suffix
    obtain ⟨x, ih⟩ := ih t
    obtain ⟨_, _, h2⟩ := before h1 t t' (Carry.adds_nil _)
    obtain ⟨_, y, h2⟩ := body_any h2 x
    exact ⟨y, .lines ih h2⟩
  | function h0 h1 ih =>
    intro t
    have i := opens_in (from_start (front_suffix h0.front) t) (fun h => (funcHead_track h).1.suffix) t h1
    obtain ⟨x, ih⟩ := ih i.to
    exact ⟨x, .function ih (opens_any (by decide) (Carry.opens no_names (by low) Carry.argFunc i h1 (Carry.adds_nil _)).2.choose_spec.2 x)⟩
  | while_ h0 h1 ih =>
    intro t
    have i := opens_in (from_start (front_suffix h0.front) t) leaves_gram t h1
    obtain ⟨x, ih⟩ := ih i.to
    exact ⟨x, .while_ ih (opens_any (by decide) (Carry.opens no_names (by low) Carry.argGram i h1 (Carry.adds_nil _)).2.choose_spec.2 x)⟩
  | for_ h0 h1 ih =>
    intro t
    have i := opens_in (from_start (front_suffix h0.front) t) leaves_for t h1
    obtain ⟨x, ih⟩ := ih i.to
    exact ⟨x, .for_ ih (opens_any (by decide) (Carry.opens no_names (by low) Carry.argFor i h1 (Carry.adds_nil _)).2.choose_spec.2 x)⟩
  | if_ h0 h1 ih =>
    intro t
    have i := opens_in (from_start (front_suffix h0.front) t) leaves_gram t h1
    obtain ⟨x, ih⟩ := ih i.to
    exact ⟨x, .if_ ih (opens_any (by decide) (Carry.opens no_names (by low) Carry.argGram i h1 (Carry.adds_nil _)).2.choose_spec.2 x)⟩
  | try_ h0 h1 ih =>
    intro t
    have i := opens_in (from_start (front_suffix h0.front) t) leaves_none t h1
    obtain ⟨x, ih⟩ := ih i.to
    exact ⟨x, .try_ ih (opens_any (by decide) (Carry.opens no_names (by low) Carry.argNone i h1 (Carry.adds_nil _)).2.choose_spec.2 x)⟩
  | elseif h0 hb h1 ih =>
    intro t
    have i := opens_in (from_start (front_suffix h0.front) t) leaves_gram t h1
    obtain ⟨x, ih⟩ := ih i.to
    exact ⟨x, .elseif ih hb (opens_any (by decide) (Carry.opens no_names (by low) Carry.argGram i h1 (Carry.adds_nil _)).2.choose_spec.2 x)⟩
  | else_ h0 hb h1 ih =>
    intro t
    have i := opens_in (from_start (front_suffix h0.front) t) leaves_none t h1
    obtain ⟨x, ih⟩ := ih i.to
    exact ⟨x, .else_ ih hb (opens_any (by decide) (Carry.opens no_names (by low) Carry.argNone i h1 (Carry.adds_nil _)).2.choose_spec.2 x)⟩
  | catch_ h0 hb h1 ih =>
    intro t
    have i := opens_in (from_start (front_suffix h0.front) t) leaves_catch t h1
    obtain ⟨x, ih⟩ := ih i.to
    exact ⟨x, .catch_ ih hb (opens_any (by decide) (Carry.opens no_names (by low) Carry.argCatch i h1 (Carry.adds_nil _)).2.choose_spec.2 x)⟩
  | finally_ h0 hb h1 ih =>
    intro t
    have i := opens_in (from_start (front_suffix h0.front) t) leaves_none t h1
    obtain ⟨x, ih⟩ := ih i.to
    exact ⟨x, .finally_ ih hb (opens_any (by decide) (Carry.opens no_names (by low) Carry.argNone i h1 (Carry.adds_nil _)).2.choose_spec.2 x)⟩

end Fore

/-! ### Blocks without their end -/

/-- A block without its end command, from `r0` to `r`. -/
inductive Part (nv : Bool) (env : Env) (fn : Str) (cx0 : Ctx) (used0 : List Str) (r0 : List Cell) :
    Inner → Ctx → List Str → List Cell → Str → Prop
  | function {ea a cm used1 r1 ss used r} : Spec.Opens nv env fn cs!"function" (FuncArgs env fn) used0 r0 ea a cm used1 r1 →
      Body nv env fn cx0.fun used1 r1 ss used r → Part nv env fn cx0 used0 r0 .function cx0.fun used r cs!"endfunction"
  | while_ {ea a cm used1 r1 ss used r} : Spec.Opens nv env fn cs!"while" (Gram env fn 1) used0 r0 ea a cm used1 r1 →
      Body nv env fn cx0.loop used1 r1 ss used r → Part nv env fn cx0 used0 r0 .while_ cx0.loop used r cs!"endwhile"
  | for_ {ea a cm used1 r1 ss used r} : Spec.Opens nv env fn cs!"for" (ForArgs env fn) used0 r0 ea a cm used1 r1 →
      Body nv env fn cx0.loop used1 r1 ss used r → Part nv env fn cx0 used0 r0 .for_ cx0.loop used r cs!"endfor"
  | if_ {b ea ss x eis used r} : ifLike (some b) → IfPart nv env fn cx0 used0 r0 ea ss x eis used r →
      Part nv env fn cx0 used0 r0 b cx0.block used r cs!"endif"
  | else_ {ea ss x eis used1 r1 ea' a cm used2 r2 ss' used r} : IfPart nv env fn cx0 used0 r0 ea ss x eis used1 r1 →
      Spec.Opens nv env fn cs!"else" NoArgs used1 r1 ea' a cm used2 r2 → Body nv env fn cx0.block used2 r2 ss' used r →
      Part nv env fn cx0 used0 r0 .else_ cx0.block used r cs!"endif"
  | try_ {b ea ss cs used r} : tryLike (some b) → TryPart nv env fn cx0 used0 r0 ea ss cs used r →
      Part nv env fn cx0 used0 r0 b cx0.block used r cs!"endtry"
  | finally_ {ea ss cs used1 r1 ea' a cm used2 r2 ss' used r} : TryPart nv env fn cx0 used0 r0 ea ss cs used1 r1 →
      Spec.Opens nv env fn cs!"finally" NoArgs used1 r1 ea' a cm used2 r2 → Body nv env fn cx0.block used2 r2 ss' used r →
      Part nv env fn cx0 used0 r0 .finally_ cx0.block used r cs!"endtry"

variable {cx0 : Ctx} {used0 : List Str} {r0 : List Cell} {i : Inner} {n : Str} {ss : List Ast.Stmt}

theorem ifPart_more {ea s x eis} (h : IfPart nv env fn cx0 used0 r0 ea s x eis used r) (hb : Body nv env fn cx0.block used r ss used' r') :
    ∃ s' eis', IfPart nv env fn cx0 used0 r0 ea s' x eis' used' r' := by
  cases h with
  | if_ h1 h2 => exact ⟨_, _, .if_ h1 (Body.append h2 hb)⟩
  | elseif h0 h1 h2 => exact ⟨_, _, .elseif h0 h1 (Body.append h2 hb)⟩

theorem tryPart_more {ea s cs} (h : TryPart nv env fn cx0 used0 r0 ea s cs used r) (hb : Body nv env fn cx0.block used r ss used' r') :
    ∃ s' cs', TryPart nv env fn cx0 used0 r0 ea s' cs' used' r' := by
  cases h with
  | try_ h1 h2 => exact ⟨_, _, .try_ h1 (Body.append h2 hb)⟩
  | catch_ h0 h1 h2 => exact ⟨_, _, .catch_ h0 h1 (Body.append h2 hb)⟩

theorem Part.more (h : Part nv env fn cx0 used0 r0 i cx used r n) (hb : Body nv env fn cx used r ss used' r') :
    Part nv env fn cx0 used0 r0 i cx used' r' n := by
  cases h with
  | function h1 h2 => exact .function h1 (Body.append h2 hb)
  | while_ h1 h2 => exact .while_ h1 (Body.append h2 hb)
  | for_ h1 h2 => exact .for_ h1 (Body.append h2 hb)
  | if_ h1 h2 => obtain ⟨_, _, h⟩ := ifPart_more h2 hb; exact .if_ h1 h
  | else_ h0 h1 h2 => exact .else_ h0 h1 (Body.append h2 hb)
  | try_ h1 h2 => obtain ⟨_, _, h⟩ := tryPart_more h2 hb; exact .try_ h1 h
  | finally_ h0 h1 h2 => exact .finally_ h0 h1 (Body.append h2 hb)

/-- The end command makes it a block. -/
theorem Part.closed {e} (h : Part nv env fn cx0 used0 r0 i cx used r n) (hc : Spec.Closes nv env fn n used r e used' r') :
    ∃ s, Block nv env fn cx0 used0 r0 s used' r' := by
  cases h with
  | function h1 h2 => exact ⟨_, .function h1 h2 hc⟩
  | while_ h1 h2 => exact ⟨_, .while_ h1 h2 hc⟩
  | for_ h1 h2 => exact ⟨_, .for_ h1 h2 hc⟩
  | if_ h1 h2 => exact ⟨_, .if_ h2 hc⟩
  | else_ h0 h1 h2 => exact ⟨_, .ifElse h0 h1 h2 hc⟩
  | try_ h1 h2 => exact ⟨_, .try_ h2 hc⟩
  | finally_ h0 h1 h2 => exact ⟨_, .tryFinally h0 h1 h2 hc⟩

/-- No block is open, or the innermost one has no end. -/
theorem openFront_part (h : OpenFront nv env fn cx b used r st) :
    b = none ∧ st = [] ∨ ∃ i n st' cx0 b0 used0 r0, b = some i ∧ st = n :: st' ∧ OpenFront nv env fn cx0 b0 used0 r0 st' ∧
      Part nv env fn cx0 used0 r0 i cx used r n := by
  induction h with
  | start => exact .inl ⟨rfl, rfl⟩
  | lines h0 h1 ih =>
    rcases ih with ih | ⟨i, n, st', cx0, b0, used0, r0, e1, e2, h, p⟩
    · exact .inl ih
    · exact .inr ⟨i, n, st', cx0, b0, used0, r0, e1, e2, h, p.more h1⟩
  | function h0 h1 _ => exact .inr ⟨_, _, _, _, _, _, _, rfl, rfl, h0, .function h1 .nil⟩
  | while_ h0 h1 _ => exact .inr ⟨_, _, _, _, _, _, _, rfl, rfl, h0, .while_ h1 .nil⟩
  | for_ h0 h1 _ => exact .inr ⟨_, _, _, _, _, _, _, rfl, rfl, h0, .for_ h1 .nil⟩
  | if_ h0 h1 _ => exact .inr ⟨_, _, _, _, _, _, _, rfl, rfl, h0, .if_ (.inl rfl) (.if_ h1 .nil)⟩
  | try_ h0 h1 _ => exact .inr ⟨_, _, _, _, _, _, _, rfl, rfl, h0, .try_ (.inl rfl) (.try_ h1 .nil)⟩
  | elseif h0 hb h1 ih =>
    rcases ih with ih | ⟨i, n, st', cx0, b0, used0, r0, rfl, e2, h, p⟩
    · rw [ih.1] at hb; rcases hb with hb | hb <;> cases hb
    · cases p with
      | if_ k1 k2 => exact .inr ⟨_, _, _, _, _, _, _, rfl, e2, h, .if_ (.inr rfl) (.elseif k2 h1 .nil)⟩
      | try_ k1 _ => rcases hb with hb | hb <;> cases hb <;> rcases k1 with k | k <;> cases k
      | _ => rcases hb with hb | hb <;> cases hb
  | else_ h0 hb h1 ih =>
    rcases ih with ih | ⟨i, n, st', cx0, b0, used0, r0, rfl, e2, h, p⟩
    · rw [ih.1] at hb; rcases hb with hb | hb <;> cases hb
    · cases p with
      | if_ k1 k2 => exact .inr ⟨_, _, _, _, _, _, _, rfl, e2, h, .else_ k2 h1 .nil⟩
      | try_ k1 _ => rcases hb with hb | hb <;> cases hb <;> rcases k1 with k | k <;> cases k
      | _ => rcases hb with hb | hb <;> cases hb
  | catch_ h0 hb h1 ih =>
    rcases ih with ih | ⟨i, n, st', cx0, b0, used0, r0, rfl, e2, h, p⟩
    · rw [ih.1] at hb; rcases hb with hb | hb <;> cases hb
    · cases p with
      | try_ k1 k2 => exact .inr ⟨_, _, _, _, _, _, _, rfl, e2, h, .try_ (.inr rfl) (.catch_ k2 h1 .nil)⟩
      | if_ k1 _ => rcases hb with hb | hb <;> cases hb <;> rcases k1 with k | k <;> cases k
      | _ => rcases hb with hb | hb <;> cases hb
  | finally_ h0 hb h1 ih =>
    rcases ih with ih | ⟨i, n, st', cx0, b0, used0, r0, rfl, e2, h, p⟩
    · rw [ih.1] at hb; rcases hb with hb | hb <;> cases hb
    · cases p with
      | try_ k1 k2 => exact .inr ⟨_, _, _, _, _, _, _, rfl, e2, h, .finally_ k2 h1 .nil⟩
      | if_ k1 _ => rcases hb with hb | hb <;> cases hb <;> rcases k1 with k | k <;> cases k
      | _ => rcases hb with hb | hb <;> cases hb

/-- The end command of the innermost block, and what follows it on its line. -/
theorem OpenFront.closed {e cm r''} (h : OpenFront nv env fn cx b used r (n :: st)) (hc : Spec.Closes nv env fn n used r e used' r')
    (ht : Trail env fn r' cm r'') : ∃ cx' b', OpenFront nv env fn cx' b' used' r'' st := by
  rcases openFront_part h with h | ⟨i, n', st', cx0, b0, used0, r0, rfl, e2, h, p⟩
  · cases h.2
  · cases e2
    obtain ⟨s, hs⟩ := p.closed hc
    exact ⟨_, _, .lines h (.block .nil hs ht)⟩

/-! ### The line of an end command -/

theorem end_entry (nv : Bool) (t : Str) (ht : t ∈ endCmds) :
    ∃ c, TableCmd nv t c ∧ c.name = t ∧ .ARGOPT ∉ c.flags ∧ .EDITCMD ∉ c.flags := by
  have h : (lookupTable nv t).any (fun c => c.name == t && !c.flags.contains .ARGOPT && !c.flags.contains .EDITCMD) = true := by
    simp only [endCmds, List.mem_cons, List.not_mem_nil, or_false] at ht
    rcases ht with rfl | rfl | rfl | rfl | rfl <;> cases nv <;> decide +kernel
  cases hl : lookupTable nv t with
  | none => rw [hl] at h; cases h
  | some c =>
    rw [hl] at h
    simp only [Option.any_some, Bool.and_eq_true, beq_iff_eq, Bool.not_eq_true', List.contains_eq_mem,
      decide_eq_false_iff_not] at h
    exact ⟨c, lookupTable_iff.1 hl, h.1.1, h.1.2, h.2⟩

theorem end_alpha : ∀ t ∈ endCmds, ∀ x ∈ t, isalpha x = true := by decide

theorem end_noMod : ∀ t ∈ endCmds, ∀ p ∈ vimModifiers, ¬ t <+: p.1 := by decide

theorem end_noCont : ∀ t ∈ endCmds, afterBackslash t = none := by decide +kernel

theorem end_pos : ∀ t ∈ endCmds, (mkEnv [t]).buf.head?.map (fun c => (c.pos.i, c.pos.lnum, c.pos.col)) = some (0, 1, 1) := by
  decide +kernel

theorem end_text : ∀ t ∈ endCmds, (mkEnv [t]).buf.map Cell.c = t.map some ++ [none] := by decide +kernel

theorem end_head (nv : Bool) (env : Env) (fn : Str) (used : List Str) {t : Str} (ht : t ∈ endCmds)
    {r re : List Cell} (h : Reads r t re) (he : headSym re = .eol) :
    ∃ ea c, c.name = t ∧ HeadAt nv env fn used r r r ea c re re used := by
  obtain ⟨c, hc, hn, hf1, hf2⟩ := end_entry nv t ht
  have ha : ∀ x ∈ t, isalpha x = true := end_alpha t ht
  have hm : ∀ p ∈ vimModifiers, ¬ t <+: p.1 := end_noMod t ht
  have hx : headSym r = .ch 'e' := by
    simp only [endCmds, List.mem_cons, List.not_mem_nil, or_false] at ht
    rcases ht with rfl | rfl | rfl | rfl | rfl <;> exact h.head
  simp only [endCmds, List.mem_cons, List.not_mem_nil, or_false] at ht
  have hne : ¬ AtEnd r := by rintro (h | h) <;> rw [hx] at h <;> cases h
  have hq : headSym r ≠ .ch '"' := by
    rw [hx]
    decide
  have hz : (headSym re).is isalpha = false := by rw [he]; rfl
  refine ⟨{ forceit := false, linepos := here env fn r, cmdpos := here env fn r, argpos := some (here env fn re), cmd := some c, modifiers := [], range := [] }, c, hn, _, ⟨[], [], re, false, re, ⟨⟨?_, ⟨[], .nil r, by simp, ?_⟩, hne, hq, r, r, .nil ?_, ?_, ?_,
    ⟨[], .nil r, by simp, ?_⟩⟩, hne, hq, ?_⟩, ?_, ?_, rfl⟩, ?_⟩
  · rintro ⟨r', h'⟩
    have := h'.head
    rw [hx] at this
    cases this
  · rw [hx]; rfl
  · rintro m r' ⟨a1, a2, a3, a4, a5, a6, a7, a8, a9, a10, a11, a12, a13, a14, a15, a16⟩
    rename_i d w k w' b name mm bang count r1 r2 r3
    have hd : d = [] := by
      cases d with
      | nil => rfl
      | cons y d =>
        have := a1.head
        rw [hx] at this
        cases this
        have := a2 'e' (by simp)
        cases this
    subst hd
    obtain rfl := a4 rfl
    obtain rfl := a1.nil_inv
    obtain rfl := reads_alpha ha h hz a6 a5 a7
    exact hm _ a8 a9
  · intro m hm; exact nomatch hm
  · have hs : Skip r r := ⟨[], .nil r, by simp, by rw [hx]; rfl⟩
    refine .last (as := []) (w := []) (r1 := r) ?_ (.no ?_ ?_) ?_ ?_
    · refine .one (a := []) (os := []) hs hne (.none ?_) (.nil hs ?_) ?_ ?_ <;>
        rw [hx] <;> decide
    all_goals rw [hx] <;> decide
  · rw [hx]; rfl
  · refine .table (n := t) (t := t) (s := []) ⟨re, by simpa using h, .inl he⟩ (.word ?_ ha ?_ ?_ ?_ ?_ ?_) hc ?_ h
    · rcases ht with rfl | rfl | rfl | rfl | rfl <;> decide
    · intro c hs; cases hs
    · rcases ht with rfl | rfl | rfl | rfl | rfl <;> decide
    · rintro ⟨y, _, hy⟩
      rcases ht with rfl | rfl | rfl | rfl | rfl <;> obtain ⟨z, hz⟩ := hy <;> cases hz
    · rcases ht with rfl | rfl | rfl | rfl | rfl <;> decide
    · rintro ⟨_, z, y, hz, hd, _⟩
      have hl := congrArg List.head? hz
      rcases ht with rfl | rfl | rfl | rfl | rfl <;>
        (simp only [deleteAbbrevs, List.mem_cons, List.not_mem_nil, or_false] at hd
         rcases hd with rfl | rfl | rfl | rfl | rfl <;> cases hl)
    · rintro ⟨⟨y, s, hy, hu⟩, _⟩
      rcases ht with rfl | rfl | rfl | rfl | rfl <;> cases hy <;> revert hu <;> decide
  · exact .no (.inl (by rw [he]; simp))
  · refine .inr ⟨by rw [hn]; rcases ht with rfl | rfl | rfl | rfl | rfl <;> decide, [], .nil re, by simp, by rw [he]; rfl⟩
  · refine ⟨_, re, _, re, _, re, _, re, .inr ⟨hf1, rfl, rfl⟩, .none ?_ ?_, .none ?_, .none ?_ ?_,
      .inr ⟨fun hh => hf2 hh.1, rfl, rfl⟩⟩ <;> rw [hn] <;> rcases ht with rfl | rfl | rfl | rfl | rfl <;>
      first | decide | (intro hh; exact absurd hh (by decide))

theorem end_closes (nv : Bool) (env : Env) (fn : Str) (used : List Str) {t : Str} (ht : t ∈ endCmds) {r re : List Cell}
    (h : Reads r t re) (he : headSym re = .eol) : ∃ e, Spec.Closes nv env fn t used r e used re := by
  obtain ⟨ea, c, h1, h2⟩ := end_head nv env fn used ht h he
  refine ⟨_, r, ea, c, re, re, h1, HeadAt.cmdHead h2, rfl, ?_⟩
  split
  · exact ⟨[], Reads.nil _, .inl he⟩
  · rfl

theorem openFront_ends (h : OpenFront nv env fn cx b used r st) : ∀ t ∈ st, t ∈ endCmds := by
  induction h with
  | start => exact fun _ h => nomatch h
  | lines _ _ ih | elseif _ _ _ ih | else_ _ _ _ ih | catch_ _ _ _ ih | finally_ _ _ _ ih => exact ih
  | function _ _ ih | while_ _ _ ih | for_ _ _ ih | if_ _ _ ih | try_ _ _ ih =>
    intro t ht
    rcases List.mem_cons.1 ht with rfl | ht
    · decide
    · exact ih t ht

theorem Part.unclosed (h : Part nv env fn cx0 used0 r0 i cx used r n) : Spec.Unclosed i (missing n) := by
  cases h with
  | function => exact .function
  | while_ => exact .while_
  | for_ => exact .for_
  | if_ h => exact .if_ (.inl h)
  | else_ => exact .if_ (.inr rfl)
  | try_ h => exact .try_ (.inl h)
  | finally_ => exact .try_ (.inr rfl)

/-! ### Files -/

variable {A B : List Str}

/-- Behind the lines `A` the commands `st` end the open blocks. -/
def OpenAt (nv : Bool) (fn : Str) (A st : List Str) : Prop :=
  ∀ B : List Str, (∀ l, B.head? = some l → afterBackslash l = none) →
    ∃ cx b used, OpenFront nv (mkEnv (A ++ B)) fn cx b used (restB A B) st

theorem between_opened (h : Between nv fn A) : ∃ st, OpenAt nv fn A st := by
  have hX : ∀ l, [commentLine].head? = some l → afterBackslash l = none := by
    intro l hl
    cases hl
    decide +kernel
  obtain ⟨cx, b, used, hf⟩ := between_front h hX
  obtain ⟨st, hf⟩ := openFront_of hf
  refine ⟨st, fun B hB => ?_⟩
  let ι : Fore (A ++ [commentLine]) (mkEnv (A ++ B)) fn := foreOf fn hX hB (by simp)
  obtain ⟨x, h3⟩ := Fore.openFront_before (ι := ι) hf (.inr rfl)
  have e : ι.κ.tr (restB A [commentLine]) = restB A B := Carry.tr_end
  rw [e] at h3
  exact ⟨cx, b, x, h3⟩

theorem OpenAt.between (h : OpenAt nv fn A st) : Between nv fn A := by
  have hX : ∀ l, [commentLine].head? = some l → afterBackslash l = none := by
    intro l hl
    cases hl
    decide +kernel
  obtain ⟨cx, b, used, h⟩ := h [commentLine] hX
  exact front_between (hX _ rfl) h.front

theorem OpenAt.ends (h : OpenAt nv fn A st) : ∀ t ∈ st, t ∈ endCmds := by
  obtain ⟨cx, b, used, h⟩ := h [] (by simp)
  exact openFront_ends h

theorem restB_append {W : List Str} (hW : ∀ l, W.head? = some l → afterBackslash l = none)
    (hB : ∀ l, B.head? = some l → afterBackslash l = none) : restB A (W ++ B) = restB A W ++ restB (A ++ W) B := by
  have h1 : ∀ y, (W ++ B).head? = some y → afterBackslash y = none := by
    intro y hy
    cases W with
    | nil => exact hB y hy
    | cons l W => exact hW y hy
  have e1 := mkEnv_append (A := A) h1
  have e2 := mkEnv_append (A := A ++ W) hB
  change _ = _ ++ restB (A ++ W) B at e2
  generalize restB (A ++ W) B = q at e2 ⊢
  rw [mkEnv_append (A := A) hW] at e2
  rw [← List.append_assoc, e2, List.append_assoc] at e1
  exact (List.append_cancel_left e1).symm

theorem restB_cons {l : Str} (hl : afterBackslash l = none) (hB : ∀ l, B.head? = some l → afterBackslash l = none) :
    restB A (l :: B) = restB A [l] ++ restB (A ++ [l]) B :=
  restB_append (W := [l]) (by rintro _ ⟨⟩; exact hl) hB

/-- A whole script opens and closes no block. -/
theorem OpenAt.script {W : List Str} {g : Ast.File} (h : OpenAt nv fn A st) (hg : Complete nv fn W g)
    (hW : ∀ l, W.head? = some l → afterBackslash l = none) : OpenAt nv fn (A ++ W) st := by
  intro B hB
  obtain ⟨cx, b, used, h⟩ := h (W ++ B) (by
    intro y hy
    cases W with
    | nil => exact hB y hy
    | cons l W => exact hW y hy)
  rw [restB_append hW hB, ← List.append_assoc] at h
  obtain ⟨U, _, hn⟩ := nest_body hg
  obtain ⟨_, _, h3⟩ := hn A (restB (A ++ W) B) (mkEnv (A ++ W ++ B)) cx [] (fun _ h => by cases h) (fun _ _ _ h => by cases h)
  obtain ⟨_, _, h3⟩ := body_any h3 used
  exact ⟨cx, b, _, h.lines h3⟩

/-- The line of an end command. -/
theorem end_line (hn : n ∈ endCmds) (hB : ∀ l, B.head? = some l → afterBackslash l = none) :
    ∃ p c, restB A (n :: B) = p ++ c :: restB (A ++ [n]) B ∧ p.map Cell.c = n.map some ∧ c.c = none ∧
      (posOf (mkEnv (A ++ n :: B)) (restB A (n :: B))).i = (mkEnv A).buf.length ∧
      (posOf (mkEnv (A ++ n :: B)) (restB A (n :: B))).lnum = A.length + 1 ∧
      (posOf (mkEnv (A ++ n :: B)) (restB A (n :: B))).col = 1 := by
  have ht : (restB A [n]).map Cell.c = n.map some ++ [none] := by
    rw [← end_text n hn]
    exact moveCell_text ..
  obtain ⟨p, q, e, h1, h2⟩ := List.map_eq_append_iff.1 ht
  obtain ⟨c, hq, h3⟩ := List.map_eq_singleton_iff.1 h2
  subst hq
  rw [restB_cons (end_noCont n hn) hB]
  refine ⟨p, c, by rw [e]; simp, h1, h3, ?_⟩
  have hp := end_pos n hn
  cases hb : (mkEnv [n]).buf with
  | nil => rw [hb] at hp; cases hp
  | cons x r =>
    rw [hb] at hp
    simp only [List.head?_cons, Option.map_some, Option.some.injEq, Prod.mk.injEq] at hp
    simp only [restB, hb, List.map_cons, List.cons_append, posOf, moveCell, hp]
    refine ⟨?_, ?_, trivial⟩ <;> omega

theorem OpenAt.close (h : OpenAt nv fn A (n :: st)) : OpenAt nv fn (A ++ [n]) st := by
  intro B hB
  have hn := h.ends n (by simp)
  have hl := end_noCont n hn
  obtain ⟨cx, b, used, h⟩ := h (n :: B) (by rintro _ ⟨⟩; exact hl)
  obtain ⟨p, c, e, h1, h3, _⟩ := end_line (A := A) hn hB
  rw [e] at h
  have hr : Reads (p ++ c :: restB (A ++ [n]) B) n (c :: restB (A ++ [n]) B) := ⟨p, rfl, h1⟩
  have he : headSym (c :: restB (A ++ [n]) B) = .eol := by simp [headSym, Cell.sym, h3]
  obtain ⟨ec, hc⟩ := end_closes nv (mkEnv (A ++ n :: B)) fn used hn hr he
  obtain ⟨cx', b', h⟩ := h.closed hc (eol_trail he)
  rw [show A ++ [n] ++ B = A ++ n :: B by simp]
  exact ⟨cx', b', used, h⟩

theorem misplaced (hp : b = none ∧ st = [] ∨ ∃ i m st' cx0 b0 used0 r0, b = some i ∧ st = m :: st' ∧
      OpenFront nv env fn cx0 b0 used0 r0 st' ∧ Part nv env fn cx0 used0 r0 i cx used r m) (hn : n ∈ endCmds) (he : st.head? ≠ some n) :
    Spec.Misplaced cx b n (misfit n st) := by
  simp only [endCmds, List.mem_cons, List.not_mem_nil, or_false] at hn
  rcases hp with ⟨rfl, rfl⟩ | ⟨i, m, st', cx0, b0, used0, r0, rfl, rfl, _, p⟩
  · rcases hn with rfl | rfl | rfl | rfl | rfl
    · exact .endfunction rfl
    · exact .endwhile (by simp)
    · exact .endfor (by simp)
    · exact .endif (by simp [inIf, ifLike])
    · exact .endtry (by simp [inTry, tryLike])
  · cases p with
    | function =>
      rcases hn with rfl | rfl | rfl | rfl | rfl
      · exact absurd rfl he
      · exact .endwhile (by simp)
      · exact .endfor (by simp)
      · exact .endif (by simp [inIf, ifLike])
      · exact .endtry (by simp [inTry, tryLike])
    | while_ =>
      rcases hn with rfl | rfl | rfl | rfl | rfl
      · exact .endfunctionWhile rfl
      · exact absurd rfl he
      · exact .endfor (by simp)
      · exact .endif (by simp [inIf, ifLike])
      · exact .endtry (by simp [inTry, tryLike])
    | for_ =>
      rcases hn with rfl | rfl | rfl | rfl | rfl
      · exact .endfunctionFor rfl
      · exact .endwhile (by simp)
      · exact absurd rfl he
      · exact .endif (by simp [inIf, ifLike])
      · exact .endtry (by simp [inTry, tryLike])
    | if_ h1 =>
      rcases hn with rfl | rfl | rfl | rfl | rfl
      · exact .endfunctionIf (.inl h1)
      · exact .endwhile (by rcases h1 with h | h <;> cases h <;> simp)
      · exact .endfor (by rcases h1 with h | h <;> cases h <;> simp)
      · exact absurd rfl he
      · exact .endtry (by rcases h1 with h | h <;> cases h <;> simp [inTry, tryLike])
    | else_ =>
      rcases hn with rfl | rfl | rfl | rfl | rfl
      · exact .endfunctionIf (.inr rfl)
      · exact .endwhile (by simp)
      · exact .endfor (by simp)
      · exact absurd rfl he
      · exact .endtry (by simp [inTry, tryLike])
    | try_ h1 =>
      rcases hn with rfl | rfl | rfl | rfl | rfl
      · exact .endfunctionTry (.inl h1)
      · exact .endwhile (by rcases h1 with h | h <;> cases h <;> simp)
      · exact .endfor (by rcases h1 with h | h <;> cases h <;> simp)
      · exact .endif (by rcases h1 with h | h <;> cases h <;> simp [inIf, ifLike])
      · exact absurd rfl he
    | finally_ =>
      rcases hn with rfl | rfl | rfl | rfl | rfl
      · exact .endfunctionTry (.inr rfl)
      · exact .endwhile (by simp)
      · exact .endfor (by simp)
      · exact .endif (by simp [inIf, ifLike])
      · exact absurd rfl he

/-- An end command that is not the one of the innermost block. -/
theorem OpenAt.misfit (h : OpenAt nv fn A st) (hn : n ∈ endCmds) (he : st.head? ≠ some n)
    (hB : ∀ l, B.head? = some l → afterBackslash l = none) :
    parseFileLines nv fn (A ++ n :: B) = some ⟨none, some (.parse fn (readLen A) (A.length + 1) 1 (Spec.misfit n st))⟩ := by
  obtain ⟨cx, b, used, h⟩ := h (n :: B) (by rintro _ ⟨⟩; exact end_noCont n hn)
  have hm := misplaced (openFront_part h) hn he
  obtain ⟨p, c, e, h1, h3, g1, g2, g3⟩ := end_line (A := A) hn hB
  have hr : Reads (restB A (n :: B)) n (c :: restB (A ++ [n]) B) := ⟨p, e, h1⟩
  obtain ⟨ea, c', k1, k2⟩ := end_head nv (mkEnv (A ++ n :: B)) fn used hn hr (by simp [headSym, Cell.sym, h3])
  rw [← k1] at hm
  rw [← k1]
  rw [← k1] at h k2 g1 g2 g3
  exact (Props.C54_lines ..).2 ⟨rfl, rfl, _, (Props.readLen_eq A).trans g1.symm, g2.symm, g3.symm, .line h.front (.place k2 hm)⟩

theorem OpenAt.rejected (h : OpenAt nv fn A (n :: st)) :
    parseFileLines nv fn A = some ⟨none, some (.parse fn (readLen A) (A.length + 1) 0 (missing n))⟩ := by
  obtain ⟨cx, b, used, h⟩ := h [] (by simp)
  rw [List.append_nil] at h
  rcases openFront_part h with h1 | ⟨i, n', st', cx0, b0, used0, r0, rfl, e2, h1, p⟩
  · cases h1.2
  · cases e2
    exact (Props.C54_lines ..).2 ⟨rfl, rfl, _, Props.readLen_eq A, rfl, rfl, .unclosed h.front p.unclosed⟩

theorem OpenAt.complete (h : OpenAt nv fn A []) : ∃ f, Complete nv fn A f := by
  have hq : ∀ l ∈ [commentLine], Quiet l := by
    intro l hl
    rw [List.mem_singleton.1 hl]
    exact .inr ⟨[], rfl⟩
  obtain ⟨cx, b, u3, h3⟩ := h [commentLine] (Props.Quiet.heads hq)
  rcases openFront_part h3 with ⟨rfl, _⟩ | ⟨i, n', st', cx0, b0, used0, r0, rfl, e2, h1, p⟩
  · obtain ⟨rfl, ss, h4⟩ := front_none h3.front rfl
    have h5 := Body.append h4 (quiet_here (mkEnv (A ++ [commentLine])) hq { top := true } u3)
    exact ⟨⟨_, ss⟩, (Props.C52_lines ..).2 ⟨u3, h5, rfl⟩⟩
  · cases e2

end Viml
