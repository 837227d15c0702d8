/-
Errors point forward: reading at a place gives no error on a line before it.
-/
import Verif.Lemmas.Suffix
import Verif.Lemmas.OrderAll
import Verif.Lemmas.CarryBlock
import Verif.Lemmas.RunIff

namespace Viml
open Spec Ast

variable {env : Env} {fn : Str} {T : List Cell}

/-- `q` is on the line of a place in `T`. -/
def At (env : Env) (T : List Cell) (q : Pos) : Prop := ∃ s, s <:+ T ∧ (posOf env s).lnum = q.lnum

theorem at_lex {r r' : List Cell} {t : Token} (h : Lex env r t r') (i : r <:+ T) : At env T t.pos := by
  cases h with
  | eof => exact ⟨[], List.nil_suffix, rfl⟩
  | eol w _ c _ h1 => exact ⟨_, h1.suf.trans i, rfl⟩
  | text w _ r1 ty v _ h1 _ h2 => exact ⟨_, h1.suf.trans i, rfl⟩

theorem at_place {p : Ast.Pos} {q : Pos} {s : List Cell} (h : PlaceOf env fn p q) (hs : s <:+ T) (hp : p = here env fn s) :
    At env T q := by
  obtain ⟨r, _, h1, rfl⟩ := h
  refine ⟨s, hs, ?_⟩
  rw [hp] at h1
  exact (congrArg Ast.Pos.line h1).symm

/-- No heredoc. -/
def plain : Expr → Bool
  | .heredoc .. => false
  | _ => true

theorem nodePos_mem (e : Expr) (h : plain e = true) : nodePos e ∈ places true e := by
  cases e with
  | heredoc => cases h
  | _ => simp [nodePos, places]

theorem plain_name (q : Ast.Pos) (ps : List Expr) : plain (nameNode q ps) = true := by
  unfold nameNode; split <;> rfl

mutual
theorem gram_plain : ∀ {k r e r'}, Gram env fn k r e r' → plain e = true
  | _, _, _, _, .ternary .. => rfl
  | _, _, _, _, .noTernary h _ => gram_plain h
  | _, _, _, _, .chain _ _ h _ => chain_plain h
  | _, _, _, _, .compare .. => rfl
  | _, _, _, _, .noCompare h _ => gram_plain h
  | _, _, _, _, .unary .. => rfl
  | _, _, _, _, .noUnary h => gram_plain h
  | _, _, _, _, .postfix h _ => chain_plain h
  | _, _, _, _, .lit .. => rfl
  | _, _, _, _, .dstring .. => rfl
  | _, _, _, _, .sstring .. => rfl
  | _, _, _, _, .list .. => rfl
  | _, _, _, _, .paren .. => rfl
  | _, _, _, _, .dict .. => rfl
  | _, _, _, _, .litdict .. => rfl
  | _, _, _, _, .lambda .. => rfl
  | _, _, _, _, .name .. => plain_name _ _
  | _, _, _, _, .sid .. => plain_name _ _

theorem chain_plain : ∀ {k r e r'}, Chain env fn k r e r' → plain e = true
  | _, _, _, _, .one _ h => gram_plain h
  | _, _, _, _, .op .. => rfl
  | _, _, _, _, .subscript .. => rfl
  | _, _, _, _, .slice .. => rfl
  | _, _, _, _, .method .. => rfl
  | _, _, _, _, .call .. => rfl
  | _, _, _, _, .dot .. => rfl
end

theorem lv_plain {r e r'} (h : LvChain env fn r e r') : plain e = true := by
  cases h with
  | start h =>
    cases h with
    | lit => rfl
    | name => exact plain_name _ _
    | sid => exact plain_name _ _
  | _ => rfl

theorem at_track {r l r'} {p : Ast.Pos} {q : Pos} (h : Track env fn false r l r') (i : r <:+ T) (hp : p ∈ l)
    (hq : PlaceOf env fn p q) : At env T q := by
  induction h with
  | nil => cases hp
  | cons h1 _ _ ih =>
    rcases List.mem_cons.1 hp with rfl | hp
    · exact at_place hq (h1.trans i) rfl
    · exact ih (h1.trans i) hp

theorem at_gram {k r e r' q} (h : Gram env fn k r e r') (hq : PlaceOf env fn (nodePos e) q) (i : r <:+ T) : At env T q :=
  at_track (gram_track (s := false) h) i (nodePos_mem e (gram_plain h)) hq

theorem at_lv {r e r' q} (h : Lv env fn r e r') (hq : PlaceOf env fn (nodePos e) q) (i : r <:+ T) : At env T q :=
  at_track (lv_track (s := false) h.1) i (nodePos_mem e (lv_plain h.1)) hq

/-- Closes the goal if the position is a place in the text. -/
macro "placed" : tactic =>
  `(tactic| first
    | exact ⟨[], List.nil_suffix, rfl⟩
    | exact at_lex (by assumption) (by assumption)
    | (refine ⟨_, ?_, rfl⟩; assumption)
    | exact at_gram (by assumption) (by assumption) (by assumption)
    | exact at_lv (by assumption) (by assumption) (by assumption))

theorem lexErr_at {r m q} (i : r <:+ T) (h : LexErr env r m q) : At env T q := by
  cases h with
  | char w _ r1 c h1 _ h2 => exact ⟨_, h1.suf.trans i, rfl⟩
  | blob w _ r1 z s r2 a b h1 _ _ h2 _ _ h3 h4 => exact ⟨_, (h2.suf.trans h1.suf).trans i, rfl⟩

theorem counted_at {n r q} (i : r <:+ T) (h : Counted env fn n r q) : At env T q := by
  induction h with
  | last => leaves; exact at_lex (by assumption) (by assumption)
  | comma => leaves; exact at_lex (by assumption) (by assumption)
  | more _ _ _ _ ih => leaves; exact ih (by assumption)

theorem patErr_at {d n r q} (i : r <:+ T) (h : PatErr env d n r q) : At env T q := by
  induction h with
  | last => leaves; placed
  | esc _ _ _ ih => leaves; exact ih (by assumption)
  | char _ _ _ _ ih => leaves; exact ih (by assumption)

theorem argOptsErr_at {r q} (i : r <:+ T) (h : ArgOptsErr env r q) : At env T q := by
  induction h with
  | here => placed
  | more _ _ _ ih => leaves; exact ih (by assumption)

theorem grepErr_at {r q} (i : r <:+ T) (h : GrepErr env r q) : At env T q := by
  cases h with
  | mk _ _ h => leaves; exact patErr_at (by assumption) h

theorem synErr_at {r q} (i : r <:+ T) (h : SynErr env r q) : At env T q := by
  induction h with
  | pat _ _ h => leaves; exact patErr_at (by assumption) h
  | eq _ h => leaves; exact patErr_at (by assumption) h
  | patMore _ _ _ _ _ ih => leaves; exact ih (by assumption)
  | eqMore _ _ _ _ ih => leaves; exact ih (by assumption)
  | char _ _ _ ih => leaves; exact ih (by assumption)

theorem want_at {r p m q} (i : r <:+ T) (h : Want env r p m q) : At env T q := by
  cases h with
  | lex h => leaves; exact lexErr_at (by assumption) h
  | token => leaves; placed

theorem lamErr_at {us r m q} (i : r <:+ T) (h : LamErr env us r m q) : At env T q := by
  induction h with
  | lex h => leaves; exact lexErr_at (by assumption) h
  | afterLex _ h => leaves; exact lexErr_at (by assumption) h
  | more _ _ _ _ _ ih => leaves; exact ih (by assumption)
  | dots _ _ h => leaves; exact want_at (by assumption) h
  | after h1 h2 _ _ => leaves; placed
  | _ => leaves; placed

theorem litErr_at {r m q} (i : r <:+ T) (h : LitErr env r m q) : At env T q := by
  cases h <;> leaves <;> placed

mutual

theorem gErr_at : ∀ {x0 x1 m q}, x1 <:+ T → GErr env fn x0 x1 m q → At env T q
  | _, _, _, _, i, .first _ _ _ h => by leaves; exact gErr_at (by assumption) h
  | _, _, _, _, i, .noOp1 _ h => by leaves; exact lexErr_at (by assumption) h
  | _, _, _, _, i, .thenPart _ _ h => by leaves; exact gErr_at (by assumption) h
  | _, _, _, _, i, .colon _ _ _ h => by leaves; exact want_at (by assumption) h
  | _, _, _, _, i, .elsePart _ _ _ _ h => by leaves; exact gErr_at (by assumption) h
  | _, _, _, _, i, .noOp _ _ h => by leaves; exact lexErr_at (by assumption) h
  | _, _, _, _, i, .right _ _ _ _ h => by leaves; exact gErr_at (by assumption) h
  | _, _, _, _, i, .noOp4 _ h => by leaves; exact lexErr_at (by assumption) h
  | _, _, _, _, i, .right4 _ _ _ h => by leaves; exact gErr_at (by assumption) h
  | _, _, _, _, i, .unary _ _ h => by leaves; exact gErr_at (by assumption) h
  | _, _, _, _, i, .noUnary _ h => by leaves; exact gErr_at (by assumption) h
  | _, _, _, _, i, .subscript _ _ _ h => by leaves; exact subErr_at (by assumption) h
  | _, _, _, _, i, .call _ _ h => by leaves; exact callErr_at (by assumption) h
  | _, _, _, _, i, .callee _ _ h => by leaves; exact gErr_at (by assumption) h
  | _, _, _, _, i, .noCallLex _ _ _ h => by leaves; exact lexErr_at (by assumption) h
  | _, _, _, _, i, .noCall _ _ _ _ _ => by leaves; placed
  | _, _, _, _, i, .method _ _ _ _ h => by leaves; exact callErr_at (by assumption) h
  | _, _, _, _, i, .lex h => by leaves; exact lexErr_at (by assumption) h
  | _, _, _, _, i, .operand _ _ => by leaves; placed
  | _, _, _, _, i, .dstring _ _ _ _ => by leaves; placed
  | _, _, _, _, i, .escape _ _ _ _ => by leaves; placed
  | _, _, _, _, i, .sstring _ _ _ _ => by leaves; placed
  | _, _, _, _, i, .list _ h => by leaves; exact argsErr_at (by assumption) h
  | _, _, _, _, i, .paren _ h => by leaves; exact gErr_at (by assumption) h
  | _, _, _, _, i, .parenEnd _ _ h => by leaves; exact want_at (by assumption) h
  | _, _, _, _, i, .name _ _ h => by leaves; exact nameErr_at (by assumption) h
  | _, _, _, _, i, .sid _ _ _ h => by leaves; exact nameErr_at (by assumption) h
  | _, _, _, _, i, .brace _ h => by leaves; exact braceErr_at (by assumption) h
  | _, _, _, _, i, .curly _ _ _ _ _ h => by leaves; exact nameErr_at (by assumption) h

theorem subErr_at : ∀ {x0 m q}, x0 <:+ T → SubErr env fn x0 m q → At env T q
  | _, _, _, i, .lex h => by leaves; exact lexErr_at (by assumption) h
  | _, _, _, i, .upper _ h => by leaves; exact upperErr_at (by assumption) h
  | _, _, _, i, .index _ h => by leaves; exact gErr_at (by assumption) h
  | _, _, _, i, .close _ h => by leaves; exact want_at (by assumption) h
  | _, _, _, i, .both _ _ h => by leaves; exact upperErr_at (by assumption) h

theorem upperErr_at : ∀ {x0 m q}, x0 <:+ T → UpperErr env fn x0 m q → At env T q
  | _, _, _, i, .lex h => by leaves; exact lexErr_at (by assumption) h
  | _, _, _, i, .expr _ h => by leaves; exact gErr_at (by assumption) h
  | _, _, _, i, .close _ h => by leaves; exact want_at (by assumption) h

theorem callErr_at : ∀ {x0 m q}, x0 <:+ T → CallErr env fn x0 m q → At env T q
  | _, _, _, i, .args h => argsErr_at i h
  | _, _, _, i, .tooMany h1 _ => counted_at i h1

theorem argsErr_at : ∀ {x0 x1 m q}, x1 <:+ T → ArgsErr env fn x0 x1 m q → At env T q
  | _, _, _, _, i, .lex h => by leaves; exact lexErr_at (by assumption) h
  | _, _, _, _, i, .item _ h => by leaves; exact itemErr_at (by assumption) h

theorem itemErr_at : ∀ {x0 x1 m q}, x1 <:+ T → ItemErr env fn x0 x1 m q → At env T q
  | _, _, _, _, i, .expr h => by leaves; exact gErr_at (by assumption) h
  | _, _, _, _, i, .close _ h => by leaves; exact want_at (by assumption) h
  | _, _, _, _, i, .more _ _ h => by leaves; exact argsErr_at (by assumption) h

theorem nameErr_at : ∀ {x0 m q}, x0 <:+ T → NameErr env fn x0 m q → At env T q
  | _, _, _, i, .text _ _ _ h => by leaves; exact nameErr_at (by assumption) h
  | _, _, _, i, .expr _ h => by leaves; exact gErr_at (by assumption) h
  | _, _, _, i, .close _ _ _ _ => by leaves; placed
  | _, _, _, i, .more _ _ _ _ h => by leaves; exact nameErr_at (by assumption) h

theorem braceErr_at : ∀ {x0 x1 m q}, x1 <:+ T → BraceErr env fn x0 x1 m q → At env T q
  | _, _, _, _, i, .lex h => by leaves; exact lexErr_at (by assumption) h
  | _, _, _, _, i, .lex2 _ _ _ _ h => by leaves; exact lexErr_at (by assumption) h
  | _, _, _, _, i, .params _ h => by leaves; exact lamErr_at (by assumption) h
  | _, _, _, _, i, .body _ h => by leaves; exact gErr_at (by assumption) h
  | _, _, _, _, i, .close _ _ h => by leaves; exact want_at (by assumption) h
  | _, _, _, _, i, .pairs _ h => by leaves; exact pairsErr_at (by assumption) h

theorem pairsErr_at : ∀ {x0 x1 x2 m q}, x2 <:+ T → PairsErr env fn x0 x1 x2 m q → At env T q
  | _, _, _, _, _, i, .lex h => by leaves; exact lexErr_at (by assumption) h
  | _, _, _, _, _, i, .pair _ h => by leaves; exact pairErr_at (by assumption) h

theorem pairErr_at : ∀ {x0 x1 x2 m q}, x2 <:+ T → PairErr env fn x0 x1 x2 m q → At env T q
  | _, _, _, _, _, i, .key h => by leaves; exact gErr_at (by assumption) h
  | _, _, _, _, _, i, .litKey h => by leaves; exact litErr_at (by assumption) h
  | _, _, _, _, _, i, .colon _ h => by leaves; exact want_at (by assumption) h
  | _, _, _, _, _, i, .value _ _ h => by leaves; exact gErr_at (by assumption) h
  | _, _, _, _, _, i, .close _ _ _ h => by leaves; exact want_at (by assumption) h
  | _, _, _, _, _, i, .more _ _ _ _ h => by leaves; exact pairsErr_at (by assumption) h

end

theorem addressErr_at {x0 m q} (i : x0 <:+ T) (h : AddressErr env x0 m q) : At env T q := by
  cases h with
  | pat _ _ h => leaves; exact patErr_at (by assumption) h
  | _ => leaves; placed

theorem addressesErr_at {x0 m q} (i : x0 <:+ T) (h : AddressesErr env x0 m q) : At env T q := by
  induction h with
  | first _ h => leaves; exact addressErr_at (by assumption) h
  | more _ _ _ _ _ _ ih => leaves; exact ih (by assumption)

theorem rangeErr_at {x0 m q} (i : x0 <:+ T) (h : RangeErr env x0 m q) : At env T q := by
  induction h with
  | first h => leaves; exact addressesErr_at (by assumption) h
  | more _ _ _ _ _ ih => leaves; exact ih (by assumption)

theorem argsAt_cmd {nv used} {r r0 rc ra : List Cell} {ea c used'} (h : ArgsAt nv env fn used r r0 rc ea c ra used') : rc <:+ r := by
  obtain ⟨_, _, _, _, _, h, _⟩ := h
  exact leaves_before h.1

theorem headErr_at {nv used x0 m q} (i : x0 <:+ T) (h : HeadErr nv env fn used x0 m q) : At env T q := by
  cases h with
  | name => leaves; placed
  | bang h => exact ⟨_, (leaves_before h.1).trans i, rfl⟩
  | argOpt _ _ h => leaves; exact argOptsErr_at (by assumption) h
  | write h => exact ⟨_, (argsAt_cmd h).trans i, rfl⟩
  | range _ _ _ _ _ _ h => leaves; exact rangeErr_at (by assumption) h

theorem rawRunErr_at {c ra x0 x1 m q} (i : x1 <:+ T) (h : RawRunErr env fn c ra x0 x1 m q) : At env T q := by
  induction h with
  | expr _ _ h => leaves; exact gErr_at (by assumption) h
  | ctrlV _ _ _ ih => leaves; exact ih (by assumption)
  | more _ _ _ _ _ ih => leaves; exact ih (by assumption)
  | char _ _ _ _ _ ih => leaves; exact ih (by assumption)
  | _ => leaves; placed

theorem rawErr_at {c filter ra x0 m q} (i : x0 <:+ T) (h : RawErr env fn c filter ra x0 m q) : At env T q := by
  cases h with
  | run _ _ h1 h2 h =>
    refine rawRunErr_at ?_ h
    by_cases hg : c.name ∈ grepCmds
    · exact (Leaves.leaves (h1 hg)).trans i
    · rw [h2 hg]; exact i
  | pat _ _ _ h => exact grepErr_at i h

theorem winErr_at {x0 m q} (i : x0 <:+ T) (h : WinErr env x0 m q) : At env T q := by
  cases h with
  | _ => leaves; placed

theorem trailErr_at {x0 m q} (i : x0 <:+ T) (h : TrailErr env x0 m q) : At env T q := by
  cases h with
  | mk => leaves; placed

theorem lvErr_at {x0 m q} (i : x0 <:+ T) (h : LvErr env fn x0 m q) : At env T q := by
  cases h with
  | lex h => leaves; exact lexErr_at (by assumption) h
  | name _ _ h => leaves; exact nameErr_at (by assumption) h
  | sid _ _ _ h => leaves; exact nameErr_at (by assumption) h
  | after _ h => leaves; exact lexErr_at (by assumption) h
  | subscript _ _ _ h => leaves; exact subErr_at (by assumption) h
  | _ => leaves; placed

theorem targetErr_at {x0 m q} (i : x0 <:+ T) (h : TargetErr env fn x0 m q) : At env T q := by
  cases h with
  | lv h => leaves; exact lvErr_at (by assumption) h
  | name h1 _ h2 => exact at_lv h1 h2 i

theorem constErr_at {x0 m q} (i : x0 <:+ T) (h : ConstErr env fn x0 m q) : At env T q := by
  cases h with
  | target h => leaves; exact targetErr_at (by assumption) h
  | kind => placed

theorem funcNameErr_at {x0 m q} (i : x0 <:+ T) (h : FuncNameErr env fn x0 m q) : At env T q := by
  cases h with
  | lv h => leaves; exact lvErr_at (by assumption) h
  | _ => leaves; placed

theorem listWant_at {p x0 m q} (i : x0 <:+ T) (h : ListWant env p x0 m q) : At env T q := by
  cases h with
  | lex h => leaves; exact lexErr_at (by assumption) h
  | _ => leaves; placed

theorem targetListErr_at {x0 m q} (i : x0 <:+ T) (h : TargetListErr env fn x0 m q) : At env T q := by
  induction h with
  | target h => leaves; exact targetErr_at (by assumption) h
  | sep _ h => leaves; exact listWant_at (by assumption) h
  | more _ _ _ ih => leaves; exact ih (by assumption)
  | rest _ _ h => leaves; exact targetErr_at (by assumption) h
  | close _ _ _ h => leaves; exact listWant_at (by assumption) h

theorem lhsErr_at {S : List Cell → Str → Pos → Prop} (hS : ∀ r m q, r <:+ T → S r m q → At env T q)
    {x0 m q} (i : x0 <:+ T) (h : LhsErr env fn S x0 m q) : At env T q := by
  cases h with
  | lex h => leaves; exact lexErr_at (by assumption) h
  | one _ h => leaves; exact hS _ _ _ i h
  | list _ h => leaves; exact targetListErr_at (by assumption) h

theorem targetsErr_at {x0 m q} (i : x0 <:+ T) (h : TargetsErr env fn x0 m q) : At env T q := by
  induction h with
  | first _ _ h => leaves; exact targetErr_at (by assumption) h
  | more _ _ _ _ ih => leaves; exact ih (by assumption)

theorem lockErr_at {x0 m q} (i : x0 <:+ T) (h : LockErr env fn x0 m q) : At env T q := by
  cases h with
  | first h => leaves; exact gErr_at (by assumption) h
  | more _ h => leaves; exact targetsErr_at (by assumption) h

theorem exprsErr_at {x0 m q} (i : x0 <:+ T) (h : ExprsErr env fn x0 m q) : At env T q := by
  induction h with
  | first _ _ h => leaves; exact gErr_at (by assumption) h
  | more _ _ _ _ ih => leaves; exact ih (by assumption)

theorem paramListErr_at {x0 x1 x2 m q} (i : x2 <:+ T) (h : ParamListErr env fn x0 x1 x2 m q) : At env T q := by
  induction h with
  | token h => leaves; exact want_at (by assumption) h
  | after _ _ h => leaves; exact lexErr_at (by assumption) h
  | default _ _ _ h => leaves; exact gErr_at (by assumption) h
  | sep _ h => leaves; exact want_at (by assumption) h
  | comma _ _ _ h => leaves; exact lexErr_at (by assumption) h
  | more _ _ _ _ _ ih => leaves; exact ih (by assumption)
  | dots _ h => leaves; exact want_at (by assumption) h
  | _ => leaves; placed

theorem paramsErr_at {x0 m q} (i : x0 <:+ T) (h : ParamsErr env fn x0 m q) : At env T q := by
  cases h with
  | lex h => leaves; exact lexErr_at (by assumption) h
  | list _ h => leaves; exact paramListErr_at (by assumption) h

theorem attrErr_at {x0 m q} (i : x0 <:+ T) (h : AttrErr env x0 m q) : At env T q := by
  induction h with
  | more _ _ _ _ ih => leaves; exact ih (by assumption)
  | word => leaves; placed

theorem funcErr_at {x0 m q} (i : x0 <:+ T) (h : FuncErr env fn x0 m q) : At env T q := by
  cases h with
  | name _ _ _ h => leaves; exact funcNameErr_at (by assumption) h
  | illegal h1 _ _ h2 _ h3 => exact at_lv h2.1 h3 (h1.adv.suffix.trans i)
  | params _ _ _ _ _ _ _ h => leaves; exact paramsErr_at (by assumption) h
  | attr _ _ _ _ _ _ _ _ h => leaves; exact attrErr_at (by assumption) h

theorem leaves_noMarker {r r' : List Cell} (h : NoMarker r r') : r' <:+ r := by
  induction h with
  | none h => exact Leaves.leaves h
  | flag h1 h2 _ _ ih => exact (ih.trans (Leaves.leaves h2)).trans (Leaves.leaves h1)

theorem hereErr_at {x0 m q} (i : x0 <:+ T) (h : HereErr env fn x0 m q) : At env T q := by
  cases h with
  | trail _ h => leaves; exact trailErr_at (by assumption) h
  | marker h => exact ⟨_, (leaves_noMarker h).trans i, rfl⟩
  | body => placed

theorem argErr_at {c filter ra x0 m q} (i : x0 <:+ T) (h : ArgErr env fn c filter ra x0 m q) : At env T q := by
  cases h with
  | raw _ h => leaves; exact rawErr_at (by assumption) h
  | wincmd _ h => leaves; exact winErr_at (by assumption) h
  | function _ h => leaves; exact funcErr_at (by assumption) h
  | funcListing _ _ h => leaves; exact rawErr_at (by assumption) h
  | delfunction _ h => leaves; exact funcNameErr_at (by assumption) h
  | return_ _ _ _ h => leaves; exact gErr_at (by assumption) h
  | call _ _ _ h => leaves; exact gErr_at (by assumption) h
  | letLeft _ _ _ h => leaves; exact lhsErr_at (fun _ _ _ => targetErr_at) (by assumption) h
  | letListing _ _ h => leaves; exact rawErr_at (by assumption) h
  | let_ _ _ _ _ _ h => leaves; exact gErr_at (by assumption) h
  | heredoc _ _ _ h => leaves; exact hereErr_at (by assumption) h
  | constLeft _ _ _ h => leaves; exact lhsErr_at (fun _ _ _ => constErr_at) (by assumption) h
  | constListing _ _ h => leaves; exact rawErr_at (by assumption) h
  | const_ _ _ _ h => leaves; exact gErr_at (by assumption) h
  | unlet _ h => leaves; exact lockErr_at (by assumption) h
  | lock _ _ h => leaves; exact lockErr_at (by assumption) h
  | expr _ h => leaves; exact gErr_at (by assumption) h
  | exprs _ h => leaves; exact exprsErr_at (by assumption) h
  | forLeft _ h => leaves; exact lhsErr_at (fun _ _ _ => targetErr_at) (by assumption) h
  | for_ _ _ _ _ h => leaves; exact gErr_at (by assumption) h
  | «syntax» _ h => exact synErr_at i h
  | catch_ _ _ _ _ h => leaves; exact patErr_at (by assumption) h
  | _ => leaves; placed

theorem lineErr_at {nv cx b used x0 m q} (i : x0 <:+ T) (h : LineErr nv env fn cx b used x0 m q) : At env T q := by
  cases h with
  | head h => leaves; exact headErr_at (by assumption) h
  | place h =>
    obtain ⟨_, h, _⟩ := h
    exact ⟨_, (argsAt_cmd h).trans i, rfl⟩
  | args _ _ h => leaves; exact argErr_at (by assumption) h
  | trail h1 _ h2 h => exact trailErr_at ((leaves_done h1 h2).trans i) h

end Viml
