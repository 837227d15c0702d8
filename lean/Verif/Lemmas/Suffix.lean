/-
What each piece of the grammar leaves of the text is an end of the text it starts with.  The tactic `leaves` collects these
facts for all hypotheses.
-/
import Verif.Spec.FileError
import Verif.Lemmas.OrderFile
import Verif.Lemmas.FileArgs
import Verif.Lemmas.FileRaw
import Verif.Lemmas.FileErrLine

namespace Viml
open Spec Ast

variable {env : Env} {fn : Str} {r r' : List Cell}

/-- If `P` holds, `r'` is an end of `r`. -/
class Leaves (P : Prop) (r r' : outParam (List Cell)) : Prop where
  leaves : P → r' <:+ r

theorem leaves_lex {t : Token} (h : Lex env r t r') : r' <:+ r := by
  cases h with
  | eof w _ h => exact h.suf
  | eol w _ c _ h => exact (List.suffix_cons c r').trans h.suf
  | text w _ r1 ty v _ h1 _ h2 => exact h2.suf.trans h1.suf

theorem leaves_gram {k : Nat} {e : Expr} (h : Gram env fn k r e r') : r' <:+ r := (gram_track (s := true) h).suffix

theorem leaves_key {lit : Bool} {k : Expr} (h : Key env fn lit r k r') : r' <:+ r := by
  cases h with
  | expr h => exact leaves_gram h
  | lit h =>
    obtain ⟨_, r2, v, ⟨w, h1, _⟩, h2, _⟩ := h
    exact h2.suf.trans h1.suf

instance {v : Str} : Leaves (Reads r v r') r r' := ⟨Spec.Reads.suf⟩
instance : Leaves (Blanks r r') r r' := ⟨Spec.Blanks.suf⟩
instance {ty q} : Leaves (Mark env fn r ty q r') r r' := ⟨Spec.Mark.suf⟩
instance {t : Token} : Leaves (Lex env r t r') r r' := ⟨leaves_lex⟩
instance {k e} : Leaves (Gram env fn k r e r') r r' := ⟨leaves_gram⟩
instance {k e} : Leaves (Chain env fn k r e r') r r' := ⟨fun h => (chain_track (s := true) h).suffix⟩
instance {us ps} : Leaves (LamParams env fn us r ps r') r r' := ⟨fun h => (lamParams_track (s := true) h).suffix⟩
instance {us v} : Leaves (LamParam env us r v r') r r' := ⟨fun ⟨_, h, _⟩ => leaves_lex h⟩
instance {b} : Leaves (Brace env r b r') r r' := ⟨fun ⟨_, h, _⟩ => leaves_lex h⟩
instance {b} : Leaves (WholeKey env fn b r r') r r' := ⟨fun ⟨_, h, _⟩ => leaves_key h⟩
instance : Leaves (Skip r r') r r' := ⟨fun h => h.adv.suffix⟩
instance : Leaves (SkipC r r') r r' := ⟨fun h => h.adv.suffix⟩
instance {f v} : Leaves (Span f r v r') r r' := ⟨fun h => h.adv.suffix⟩
instance {v} : Leaves (RestOf r v r') r r' := ⟨fun h => h.1.suf⟩
instance {d n p e} : Leaves (Pat d n r p e r') r r' := ⟨fun h => h.adv.suffix⟩
instance {os} : Leaves (Offsets r os r') r r' := ⟨fun h => h.adv.suffix⟩
instance {a} : Leaves (Address r a r') r r' := ⟨fun h => h.adv.suffix⟩
instance {a} : Leaves (Addresses r a r') r r' := ⟨fun h => h.adv.suffix⟩
instance {a} : Leaves (WholeFile r a r') r r' := ⟨fun h => h.adv.suffix⟩
instance {a} : Leaves (Mods r a r') r r' := ⟨fun h => h.adv.suffix⟩
instance {a b} : Leaves (ArgOpt a r b r') r r' := ⟨fun h => h.adv.suffix⟩
instance {a b} : Leaves (ArgOpts a r b r') r r' := ⟨fun h => h.adv.suffix⟩
instance {c a b} : Leaves (Options c a r b r') r r' := ⟨fun h => h.adv.suffix⟩
instance {c b} : Leaves (Bang c r b r') r r' := ⟨fun h => h.adv.suffix⟩
instance {nv u c u'} : Leaves (CmdName nv u r c r' u') r r' := ⟨fun h => h.adv'.suffix⟩
instance : Leaves (GrepPat r r') r r' := ⟨fun h => h.adv.suffix⟩
instance : Leaves (WinArg r r') r r' := ⟨fun h => h.adv.suffix⟩
instance : Leaves (Drop r r') r r' := ⟨fun h => h.adv.suffix⟩
instance {n} : Leaves (Depth r n r') r r' := ⟨fun h => h.adv.suffix⟩
instance {e} : Leaves (LvChain env fn r e r') r r' := ⟨fun h => (lv_track (s := true) h).suffix⟩
instance {e} : Leaves (Lv env fn r e r') r r' := ⟨fun h => (lv_track (s := true) h.1).suffix⟩
instance {e} : Leaves (Target env fn r e r') r r' := ⟨fun h => (lv_track (s := true) h.1.1).suffix⟩
instance {e} : Leaves (FuncName env fn r e r') r r' := ⟨fun h => (lv_track (s := true) h.1.1).suffix⟩
instance {us d i ds} : Leaves (Param env fn us d r i ds r') r r' := ⟨fun h => (param_track h).1.suffix⟩
instance {fs k} : Leaves (HereHead env r fs k r') r r' := ⟨fun h => h.adv.suffix⟩
instance {cm} : Leaves (Trail env fn r cm r') r r' := ⟨fun h => (trail_track h).elim fun _ h => h.2.suffix⟩

theorem leaves_before {r0 rc : List Cell} {ms rg} (h : Before r r0 ms rg rc) : rc <:+ r := by
  obtain ⟨_, h1, _⟩ := id h
  exact h.adv.suffix.trans h1.adv.suffix

instance {r0 rc : List Cell} {ms rg} : Leaves (Before r r0 ms rg rc) r rc := ⟨leaves_before⟩
instance {nv u rc c ms rg} {r0 r1 : List Cell} {u'} : Leaves (NamedAt nv u r r0 ms rg rc c r1 u') r r1 :=
  ⟨fun h => h.2.2.2.adv'.suffix.trans (leaves_before h.1)⟩
instance {nv u rc c ea} {r0 ra : List Cell} {u'} : Leaves (ArgsAt nv env fn u r r0 rc ea c ra u') r ra :=
  ⟨fun h => by
    obtain ⟨ms, rg, r1, b, r2, h1, h2, h3, _⟩ := h
    have h4 := h2.adv.suffix.trans (Leaves.leaves h1)
    rcases h3 with ⟨_, rfl⟩ | ⟨_, h3⟩
    · exact h4
    · exact h3.adv.suffix.trans h4⟩
instance {nv u rc c ea} {r0 ra : List Cell} {u'} : Leaves (HeadAt nv env fn u r r0 rc ea c ra r' u') r r' :=
  ⟨fun ⟨_, h1, h2⟩ => h2.adv.suffix.trans (Leaves.leaves h1)⟩
theorem leaves_targetList {es x} (h : TargetList env fn r es x r') : r' <:+ r := by
  induction h with
  | last h1 h2 => exact h2.suf.trans (Leaves.leaves h1)
  | cons h1 h2 _ ih => exact (ih.trans h2.suf).trans (Leaves.leaves h1)
  | rest h1 h2 h3 h4 =>
    exact ((h4.suf.trans (Leaves.leaves h3)).trans h2.suf).trans (Leaves.leaves h1)

theorem leaves_lhs {S : List Cell → Expr → List Cell → Prop} (hS : ∀ {r e r'}, S r e r' → r' <:+ r) {l ls x}
    (h : LhsAt env fn S r l ls x r') : r' <:+ r := by
  cases h with
  | one _ h => exact hS h
  | list h1 h2 => exact (leaves_targetList h2).trans h1.suf

theorem leaves_letLeft {S : List Cell → Expr → List Cell → Prop} (hS : ∀ {r e r'}, S r e r' → r' <:+ r) {l ls x}
    (h : LetLeft env fn S r l ls x r') : r' <:+ r := by
  obtain ⟨r1, r2, h1, _, h2, h3⟩ := h
  exact (h3.adv.suffix.trans (leaves_lhs hS h2)).trans h1.adv.suffix

theorem leaves_target {e} (h : Target env fn r e r') : r' <:+ r := Leaves.leaves h

instance {is ds} : Leaves (FuncParamsAt env fn r is ds r') r r' := ⟨fun h => by
  cases h with
  | none h => exact h.suf
  | some _ h => exact (params_track h).1.suffix⟩
instance {l ls x} : Leaves (LetLeft env fn (Target env fn) r l ls x r') r r' := ⟨leaves_letLeft leaves_target⟩
instance {l ls x} : Leaves (LetLeft env fn (ConstTarget env fn) r l ls x r') r r' :=
  ⟨leaves_letLeft fun h => leaves_target h.1⟩
instance {l ls x} : Leaves (LhsAt env fn (Target env fn) r l ls x r') r r' := ⟨leaves_lhs leaves_target⟩

theorem HeadAt.cmdHead {nv u r0 rc ea c ra u'} (h : HeadAt nv env fn u r r0 rc ea c ra r' u') :
    CmdHead nv env fn u r r0 ea c ra r' u' := by
  obtain ⟨_, ⟨ms, rg, r1, b, r2, ⟨h1, h2, h3, h4⟩, h5, h6, rfl⟩, h7⟩ := h
  exact ⟨ms, rg, rc, r1, b, r2, h1, h2, h3, h4, h5, h6, h7⟩

theorem leaves_done {nv u r0 rc ea c ra u' r1 cx} (h : HeadAt nv env fn u r r0 rc ea c ra r1 u')
    (h2 : ArgsDone env fn cx r0 ra ea c r1 r') : r' <:+ r := by
  have h3 : r1 <:+ r := Leaves.leaves h
  cases h2 with
  | simple h2 => exact (simple_order (HeadAt.cmdHead h) h2).suffix
  | function _ h2 => exact (funcHead_track h2).1.suffix.trans h3
  | expr _ h2 => exact (leaves_gram h2).trans h3
  | for_ _ h2 =>
    cases h2 with
    | mk a b c d =>
      exact (((leaves_gram d).trans c.adv.suffix).trans b.adv.suffix).trans ((leaves_lhs leaves_target a).trans h3)
  | catch_ _ h2 =>
    cases h2 with
    | none a => exact a.adv.suffix.trans h3
    | pat a _ b c => exact ((c.adv.suffix.trans b.suf).trans a.adv.suffix).trans h3
  | endfunction _ h2 => exact h2.1.suf.trans h3
  | none => exact h3

open Lean Elab Tactic in
/-- For each hypothesis `P` with `Leaves P r r'`, where `r` is known to be an end of a text, adds that `r'` is. -/
elab "leaves" : tactic => withMainContext do
  for d in (← getLCtx) do
    unless d.isImplementationDetail do
      let s ← Term.exprToSyntax d.toExpr
      evalTactic (← `(tactic| try have := List.IsSuffix.trans (Leaves.leaves $s) (by assumption)))

end Viml
