/-
Every error has a message of the catalogue.
-/
import Verif.Spec.Message
import Verif.Lemmas.Suffix
import Verif.Lemmas.CarryBlock
import Verif.Lemmas.RunIff

namespace Viml
open Spec Ast

variable {env : Env} {fn : Str}

theorem quoted_reads {r r' : List Cell} {v : Str} (h : Reads r v r') (i : r <:+ env.buf) : Quoted env v := .inr (.inr ⟨r, r', i, h⟩)

theorem quoted_lex {r r' : List Cell} {t : Token} (h : Lex env r t r') (i : r <:+ env.buf) : Quoted env t.value := by
  cases h with
  | eof => exact .inr (.inl rfl)
  | eol => exact .inl rfl
  | text w _ r1 ty v _ h1 _ h2 => exact quoted_reads h2 (h1.suf.trans i)

theorem reads_of_head {r : List Cell} {c : Char} (h : headSym r = .ch c) : Reads r [c] r.tail := by
  exact reads_one_iff.2 ⟨h, rfl⟩

theorem quoted_head {r : List Cell} (i : r <:+ env.buf) : Quoted env (headSym r).str := by
  cases h : headSym r with
  | ch c => exact quoted_reads (reads_of_head h) i
  | eol => exact .inl rfl
  | eof => exact .inr (.inl rfl)

theorem quoted_next {r : List Cell} (i : r <:+ env.buf) : Quoted env (nextChar r) := by
  unfold nextChar
  split
  · exact quoted_reads (reads_of_head ‹_›) i
  · exact quoted_reads (Spec.Reads.nil r) i

theorem quoted_name {r r' : List Cell} {x : Ident} (h : Lv env fn r (.ident x) r') (i : r <:+ env.buf) :
    Quoted env x.name := by
  obtain ⟨h, _⟩ := h
  cases h with
  | start h =>
    have key : ∀ {q ps}, Expr.ident x = nameNode q ps → ∃ p, ps = [.curlyNameLit p x.name] := by
      intro q ps e
      unfold nameNode at e
      split at e
      · cases e; exact ⟨_, rfl⟩
      · cases e
    generalize he : Expr.ident x = e at h
    cases h with
    | lit => cases he
    | name h1 _ h2 _ =>
      obtain ⟨p, rfl⟩ := key he
      cases h2 with
      | text h3 => exact quoted_reads h3 (h1.suf.trans i)
    | sid h1 h2 _ h3 =>
      obtain ⟨p, e⟩ := key he
      cases e
      exact quoted_reads h2 (h1.suf.trans i)

/-- The messages but for that about a name that is no command. -/
inductive Message0 (env : Env) (fn : Str) : Str → Pos → Prop
  | fixed {m q} : m ∈ fixedMessages → Message0 env fn m q
  | quoting {p s q} : p ∈ quotingMessages.filter (· ≠ cs!"E492: Not an editor command: ") → Quoted env s → Message0 env fn (p ++ s) q
  | lambda {s n q} : Quoted env s →
      Message0 env fn (cs!"unexpected token: " ++ s ++ cs!", type: " ++ Nat.toDigits 10 n) q
  | marker {s q} : Quoted env s → Message0 env fn (cs!"E990: Missing end marker '" ++ s ++ cs!"'") q
  | tooMany {q} : TooMany env fn q → Message0 env fn e740 q

theorem Message0.message {m q} (h : Message0 env fn m q) : Message env fn m q := by
  cases h with
  | fixed h => exact .fixed h
  | quoting h1 h2 => exact .quoting (List.mem_filter.1 h1).1 h2
  | lambda h => exact .lambda h
  | marker h => exact .marker h
  | tooMany h => exact .tooMany h

/-- None of these messages is about a name that is no command. -/
theorem Message0.ne {m q} (h : Message0 env fn m q) (l : Str) : m ≠ cs!"E492: Not an editor command: " ++ l := by
  cases h with
  | fixed h =>
    rintro rfl
    have : (fixedMessages.all fun m => decide (m.take 5 ≠ cs!"E492:")) = true := by decide +kernel
    have := List.all_eq_true.1 this _ h
    simp at this
  | quoting h1 h2 =>
    have : ((quotingMessages.filter (· ≠ cs!"E492: Not an editor command: ")).all
      fun m => decide (m.take 5 ≠ cs!"E492:" ∧ 5 ≤ m.length)) = true := by decide +kernel
    have := List.all_eq_true.1 this _ h1
    obtain ⟨h3, h4⟩ := of_decide_eq_true this
    intro e
    have e := congrArg (List.take 5) e
    rw [List.take_append_of_le_length h4] at e
    exact h3 e
  | lambda h => simp
  | marker h => simp
  | tooMany h => unfold e740; simp

/-- Closes the goal if the message is in the catalogue. -/
macro "listed" : tactic =>
  `(tactic| first
    | exact .fixed (by decide)
    | (refine .quoting (by decide) (quoted_head ?_); assumption)
    | exact .quoting (by decide) (quoted_next (by assumption))
    | exact .quoting (by decide) (quoted_lex (by assumption) (by assumption)))

theorem lexErr_message {r m q} (i : r <:+ env.buf) (h : LexErr env r m q) : Message0 env fn m q := by
  cases h with
  | char w _ r1 c h1 _ h2 => exact .quoting (by decide) (quoted_reads (reads_of_head h2) (h1.suf.trans i))
  | blob w _ r1 z s r2 a b h1 _ _ h2 _ _ h3 h4 =>
    refine .quoting (by decide) (quoted_reads (r := r2) (r' := r2.tail.tail) ?_ ((h2.suf.trans h1.suf).trans i))
    exact (reads_of_head h3).append (reads_of_head h4)

theorem want_message {r p m q} (i : r <:+ env.buf) (h : Want env r p m q) : Message0 env fn m q := by
  cases h with
  | lex h => leaves; exact lexErr_message (by assumption) h
  | token => leaves; listed

theorem lamErr_message {us r m q} (i : r <:+ env.buf) (h : LamErr env us r m q) : Message0 env fn m q := by
  induction h with
  | lex h => leaves; exact lexErr_message (by assumption) h
  | afterLex _ h => leaves; exact lexErr_message (by assumption) h
  | more _ _ _ _ _ ih => leaves; exact ih (by assumption)
  | dots _ _ h => leaves; exact want_message (by assumption) h
  | after h1 h2 _ _ => leaves; exact .lambda (quoted_lex h2 (by assumption))
  | _ => leaves; listed

theorem litErr_message {r m q} (i : r <:+ env.buf) (h : LitErr env r m q) : Message0 env fn m q := by
  cases h <;> leaves <;> listed

mutual

theorem gErr_message : ∀ {x0 x1 m q}, x1 <:+ env.buf → GErr env fn x0 x1 m q → Message0 env fn m q
  | _, _, _, _, i, .first _ _ _ h => by leaves; exact gErr_message (by assumption) h
  | _, _, _, _, i, .noOp1 _ h => by leaves; exact lexErr_message (by assumption) h
  | _, _, _, _, i, .thenPart _ _ h => by leaves; exact gErr_message (by assumption) h
  | _, _, _, _, i, .colon _ _ _ h => by leaves; exact want_message (by assumption) h
  | _, _, _, _, i, .elsePart _ _ _ _ h => by leaves; exact gErr_message (by assumption) h
  | _, _, _, _, i, .noOp _ _ h => by leaves; exact lexErr_message (by assumption) h
  | _, _, _, _, i, .right _ _ _ _ h => by leaves; exact gErr_message (by assumption) h
  | _, _, _, _, i, .noOp4 _ h => by leaves; exact lexErr_message (by assumption) h
  | _, _, _, _, i, .right4 _ _ _ h => by leaves; exact gErr_message (by assumption) h
  | _, _, _, _, i, .unary _ _ h => by leaves; exact gErr_message (by assumption) h
  | _, _, _, _, i, .noUnary _ h => by leaves; exact gErr_message (by assumption) h
  | _, _, _, _, i, .subscript _ _ _ h => by leaves; exact subErr_message (by assumption) h
  | _, _, _, _, i, .call _ _ h => by leaves; refine callErr_message ⟨_, _, ?_, by assumption⟩ h; assumption
  | _, _, _, _, i, .callee _ _ h => by leaves; exact gErr_message (by assumption) h
  | _, _, _, _, i, .noCallLex _ _ _ h => by leaves; exact lexErr_message (by assumption) h
  | _, _, _, _, i, .noCall _ _ _ _ _ => by leaves; listed
  | _, _, _, _, i, .method _ _ _ _ h => by leaves; refine callErr_message ⟨_, _, ?_, by assumption⟩ h; assumption
  | _, _, _, _, i, .lex h => by leaves; exact lexErr_message (by assumption) h
  | _, _, _, _, i, .operand _ _ => by leaves; listed
  | _, _, _, _, i, .dstring _ _ _ _ => by leaves; listed
  | _, _, _, _, i, .escape _ _ _ _ => by leaves; listed
  | _, _, _, _, i, .sstring _ _ _ _ => by leaves; listed
  | _, _, _, _, i, .list _ h => by leaves; exact argsErr_message (by assumption) h
  | _, _, _, _, i, .paren _ h => by leaves; exact gErr_message (by assumption) h
  | _, _, _, _, i, .parenEnd _ _ h => by leaves; exact want_message (by assumption) h
  | _, _, _, _, i, .name _ _ h => by leaves; exact nameErr_message (by assumption) h
  | _, _, _, _, i, .sid _ _ _ h => by leaves; exact nameErr_message (by assumption) h
  | _, _, _, _, i, .brace _ h => by leaves; exact braceErr_message (by assumption) h
  | _, _, _, _, i, .curly _ _ _ _ _ h => by leaves; exact nameErr_message (by assumption) h

theorem subErr_message : ∀ {x0 m q}, x0 <:+ env.buf → SubErr env fn x0 m q → Message0 env fn m q
  | _, _, _, i, .lex h => by leaves; exact lexErr_message (by assumption) h
  | _, _, _, i, .upper _ h => by leaves; exact upperErr_message (by assumption) h
  | _, _, _, i, .index _ h => by leaves; exact gErr_message (by assumption) h
  | _, _, _, i, .close _ h => by leaves; exact want_message (by assumption) h
  | _, _, _, i, .both _ _ h => by leaves; exact upperErr_message (by assumption) h

theorem upperErr_message : ∀ {x0 m q}, x0 <:+ env.buf → UpperErr env fn x0 m q → Message0 env fn m q
  | _, _, _, i, .lex h => by leaves; exact lexErr_message (by assumption) h
  | _, _, _, i, .expr _ h => by leaves; exact gErr_message (by assumption) h
  | _, _, _, i, .close _ h => by leaves; exact want_message (by assumption) h

theorem callErr_message : ∀ {x0 m q}, (∃ r0 q0, r0 <:+ env.buf ∧ Mark env fn r0 .popen q0 x0) → CallErr env fn x0 m q → Message0 env fn m q
  | _, _, _, i, .args h => by
    obtain ⟨_, _, i1, i2⟩ := i
    exact argsErr_message (i2.suf.trans i1) h
  | _, _, _, i, .tooMany h1 h2 => by
    obtain ⟨_, _, i1, i2⟩ := i
    exact .tooMany ⟨_, _, _, _, i1, i2, h1, h2⟩

theorem argsErr_message : ∀ {x0 x1 m q}, x1 <:+ env.buf → ArgsErr env fn x0 x1 m q → Message0 env fn m q
  | _, _, _, _, i, .lex h => by leaves; exact lexErr_message (by assumption) h
  | _, _, _, _, i, .item _ h => by leaves; exact itemErr_message (by assumption) h

theorem itemErr_message : ∀ {x0 x1 m q}, x1 <:+ env.buf → ItemErr env fn x0 x1 m q → Message0 env fn m q
  | _, _, _, _, i, .expr h => by leaves; exact gErr_message (by assumption) h
  | _, _, _, _, i, .close _ h => by leaves; exact want_message (by assumption) h
  | _, _, _, _, i, .more _ _ h => by leaves; exact argsErr_message (by assumption) h

theorem nameErr_message : ∀ {x0 m q}, x0 <:+ env.buf → NameErr env fn x0 m q → Message0 env fn m q
  | _, _, _, i, .text _ _ _ h => by leaves; exact nameErr_message (by assumption) h
  | _, _, _, i, .expr _ h => by leaves; exact gErr_message (by assumption) h
  | _, _, _, i, .close _ _ _ _ => by leaves; listed
  | _, _, _, i, .more _ _ _ _ h => by leaves; exact nameErr_message (by assumption) h

theorem braceErr_message : ∀ {x0 x1 m q}, x1 <:+ env.buf → BraceErr env fn x0 x1 m q → Message0 env fn m q
  | _, _, _, _, i, .lex h => by leaves; exact lexErr_message (by assumption) h
  | _, _, _, _, i, .lex2 _ _ _ _ h => by leaves; exact lexErr_message (by assumption) h
  | _, _, _, _, i, .params _ h => by leaves; exact lamErr_message (by assumption) h
  | _, _, _, _, i, .body _ h => by leaves; exact gErr_message (by assumption) h
  | _, _, _, _, i, .close _ _ h => by leaves; exact want_message (by assumption) h
  | _, _, _, _, i, .pairs _ h => by leaves; exact pairsErr_message (by assumption) h

theorem pairsErr_message : ∀ {x0 x1 x2 m q}, x2 <:+ env.buf → PairsErr env fn x0 x1 x2 m q → Message0 env fn m q
  | _, _, _, _, _, i, .lex h => by leaves; exact lexErr_message (by assumption) h
  | _, _, _, _, _, i, .pair _ h => by leaves; exact pairErr_message (by assumption) h

theorem pairErr_message : ∀ {x0 x1 x2 m q}, x2 <:+ env.buf → PairErr env fn x0 x1 x2 m q → Message0 env fn m q
  | _, _, _, _, _, i, .key h => by leaves; exact gErr_message (by assumption) h
  | _, _, _, _, _, i, .litKey h => by leaves; exact litErr_message (by assumption) h
  | _, _, _, _, _, i, .colon _ h => by leaves; exact want_message (by assumption) h
  | _, _, _, _, _, i, .value _ _ h => by leaves; exact gErr_message (by assumption) h
  | _, _, _, _, _, i, .close _ _ _ h => by leaves; exact want_message (by assumption) h
  | _, _, _, _, _, i, .more _ _ _ _ h => by leaves; exact pairsErr_message (by assumption) h

end

theorem addressErr_message {x0 m q} (i : x0 <:+ env.buf) (h : AddressErr env x0 m q) : Message0 env fn m q := by
  cases h with
  | _ => leaves; listed

theorem addressesErr_message {x0 m q} (i : x0 <:+ env.buf) (h : AddressesErr env x0 m q) : Message0 env fn m q := by
  induction h with
  | first _ h => leaves; exact addressErr_message (by assumption) h
  | more _ _ _ _ _ _ ih => leaves; exact ih (by assumption)

theorem rangeErr_message {x0 m q} (i : x0 <:+ env.buf) (h : RangeErr env x0 m q) : Message0 env fn m q := by
  induction h with
  | first h => leaves; exact addressesErr_message (by assumption) h
  | more _ _ _ _ _ ih => leaves; exact ih (by assumption)

/-- A name that is no command. -/
def BadName (nv : Bool) (env : Env) (used : List Str) (r : List Cell) (m : Str) (q : Pos) : Prop :=
  ∃ r0 ms rg rc l r', Before r r0 ms rg rc ∧ ¬ AtEnd rc ∧ headSym rc ≠ .ch '"' ∧
    (∀ c r1 used', ¬ CmdName nv used rc c r1 used') ∧ RestOf rc l r' ∧ m = cs!"E492: Not an editor command: " ++ l ∧ q = posOf env rc

theorem headErr_message {nv used x0 m q} (i : x0 <:+ env.buf) (h : HeadErr nv env fn used x0 m q) :
    Message0 env fn m q ∨ BadName nv env used x0 m q := by
  cases h with
  | name h1 h2 h3 h4 h => exact .inr ⟨_, _, _, _, _, _, h1, h2, h3, h4, h, rfl, rfl⟩
  | range _ _ _ _ _ _ h => left; leaves; exact rangeErr_message (by assumption) h
  | _ => left; leaves; listed

theorem badName_message {nv used r m q} (i : r <:+ env.buf) (h : BadName nv env used r m q) : Message env fn m q := by
  obtain ⟨r0, ms, rg, rc, l, r', h1, _, _, _, h2, rfl, _⟩ := h
  exact .quoting (by decide) (quoted_reads h2.1 ((h1.adv.suffix.trans h1.2.1.adv.suffix).trans i))

theorem rawRunErr_message {c ra x0 x1 m q} (i : x1 <:+ env.buf) (h : RawRunErr env fn c ra x0 x1 m q) : Message0 env fn m q := by
  induction h with
  | expr _ _ h => leaves; exact gErr_message (by assumption) h
  | ctrlV _ _ _ ih => leaves; exact ih (by assumption)
  | more _ _ _ _ _ ih => leaves; exact ih (by assumption)
  | char _ _ _ _ _ ih => leaves; exact ih (by assumption)
  | _ => leaves; listed

theorem rawErr_message {c filter ra x0 m q} (i : x0 <:+ env.buf) (h : RawErr env fn c filter ra x0 m q) : Message0 env fn m q := by
  cases h with
  | run _ _ h1 h2 h =>
    refine rawRunErr_message ?_ h
    by_cases hg : c.name ∈ grepCmds
    · exact (Leaves.leaves (h1 hg)).trans i
    · rw [h2 hg]; exact i
  | _ => leaves; listed

theorem winErr_message {x0 m q} (i : x0 <:+ env.buf) (h : WinErr env x0 m q) : Message0 env fn m q := by
  cases h with
  | _ => leaves; listed

theorem trailErr_message {x0 m q} (i : x0 <:+ env.buf) (h : TrailErr env x0 m q) : Message0 env fn m q := by
  cases h with
  | mk h1 h2 => exact .quoting (by decide) (quoted_reads (reads_of_head h2) (h1.adv.suffix.trans i))

theorem lvErr_message {x0 m q} (i : x0 <:+ env.buf) (h : LvErr env fn x0 m q) : Message0 env fn m q := by
  cases h with
  | lex h => leaves; exact lexErr_message (by assumption) h
  | name _ _ h => leaves; exact nameErr_message (by assumption) h
  | sid _ _ _ h => leaves; exact nameErr_message (by assumption) h
  | after _ h => leaves; exact lexErr_message (by assumption) h
  | subscript _ _ _ h => leaves; exact subErr_message (by assumption) h
  | _ => leaves; listed

theorem targetErr_message {x0 m q} (i : x0 <:+ env.buf) (h : TargetErr env fn x0 m q) : Message0 env fn m q := by
  cases h with
  | lv h => leaves; exact lvErr_message (by assumption) h
  | name h1 => exact .quoting (by decide) (quoted_name h1 i)

theorem unlockable_message {x0 m q} (h : Unlockable x0 m) : Message0 env fn m q := by
  cases h with
  | _ => leaves; listed

theorem constErr_message {x0 m q} (i : x0 <:+ env.buf) (h : ConstErr env fn x0 m q) : Message0 env fn m q := by
  cases h with
  | target h => leaves; exact targetErr_message (by assumption) h
  | kind _ h _ => leaves; exact unlockable_message h

theorem funcNameErr_message {x0 m q} (i : x0 <:+ env.buf) (h : FuncNameErr env fn x0 m q) : Message0 env fn m q := by
  cases h with
  | lv h => leaves; exact lvErr_message (by assumption) h
  | _ => leaves; listed

theorem listWant_message {p x0 m q} (i : x0 <:+ env.buf) (h : ListWant env p x0 m q) : Message0 env fn m q := by
  cases h with
  | lex h => leaves; exact lexErr_message (by assumption) h
  | _ => leaves; listed

theorem targetListErr_message {x0 m q} (i : x0 <:+ env.buf) (h : TargetListErr env fn x0 m q) : Message0 env fn m q := by
  induction h with
  | target h => leaves; exact targetErr_message (by assumption) h
  | sep _ h => leaves; exact listWant_message (by assumption) h
  | more _ _ _ ih => leaves; exact ih (by assumption)
  | rest _ _ h => leaves; exact targetErr_message (by assumption) h
  | close _ _ _ h => leaves; exact listWant_message (by assumption) h

theorem lhsErr_message {S : List Cell → Str → Pos → Prop} (hS : ∀ r m q, r <:+ env.buf → S r m q → Message0 env fn m q)
    {x0 m q} (i : x0 <:+ env.buf) (h : LhsErr env fn S x0 m q) : Message0 env fn m q := by
  cases h with
  | lex h => leaves; exact lexErr_message (by assumption) h
  | one _ h => leaves; exact hS _ _ _ i h
  | list _ h => leaves; exact targetListErr_message (by assumption) h

theorem targetsErr_message {x0 m q} (i : x0 <:+ env.buf) (h : TargetsErr env fn x0 m q) : Message0 env fn m q := by
  induction h with
  | first _ _ h => leaves; exact targetErr_message (by assumption) h
  | more _ _ _ _ ih => leaves; exact ih (by assumption)

theorem lockErr_message {x0 m q} (i : x0 <:+ env.buf) (h : LockErr env fn x0 m q) : Message0 env fn m q := by
  cases h with
  | first h => leaves; exact gErr_message (by assumption) h
  | more _ h => leaves; exact targetsErr_message (by assumption) h

theorem exprsErr_message {x0 m q} (i : x0 <:+ env.buf) (h : ExprsErr env fn x0 m q) : Message0 env fn m q := by
  induction h with
  | first _ _ h => leaves; exact gErr_message (by assumption) h
  | more _ _ _ _ ih => leaves; exact ih (by assumption)

theorem paramListErr_message {x0 x1 x2 m q} (i : x2 <:+ env.buf) (h : ParamListErr env fn x0 x1 x2 m q) : Message0 env fn m q := by
  induction h with
  | token h => leaves; exact want_message (by assumption) h
  | after _ _ h => leaves; exact lexErr_message (by assumption) h
  | default _ _ _ h => leaves; exact gErr_message (by assumption) h
  | sep _ h => leaves; exact want_message (by assumption) h
  | comma _ _ _ h => leaves; exact lexErr_message (by assumption) h
  | more _ _ _ _ _ ih => leaves; exact ih (by assumption)
  | dots _ h => leaves; exact want_message (by assumption) h
  | _ => leaves; listed

theorem paramsErr_message {x0 m q} (i : x0 <:+ env.buf) (h : ParamsErr env fn x0 m q) : Message0 env fn m q := by
  cases h with
  | lex h => leaves; exact lexErr_message (by assumption) h
  | list _ h => leaves; exact paramListErr_message (by assumption) h

theorem attrErr_message {x0 m q} (i : x0 <:+ env.buf) (h : AttrErr env x0 m q) : Message0 env fn m q := by
  induction h with
  | more _ _ _ _ ih => leaves; exact ih (by assumption)
  | word h1 h2 => exact .quoting (by decide) (quoted_reads h2.1 (h1.adv.suffix.trans i))

theorem funcErr_message {x0 m q} (i : x0 <:+ env.buf) (h : FuncErr env fn x0 m q) : Message0 env fn m q := by
  cases h with
  | name _ _ _ h => leaves; exact funcNameErr_message (by assumption) h
  | illegal h1 _ _ h2 => exact .quoting (by decide) (quoted_name h2.1 (h1.adv.suffix.trans i))
  | params _ _ _ _ _ _ _ h => leaves; exact paramsErr_message (by assumption) h
  | attr _ _ _ _ _ _ _ _ h => leaves; exact attrErr_message (by assumption) h

theorem quoted_marker {r r' : List Cell} {fs k} (h : HereHead env r fs k r') (i : r <:+ env.buf) : Quoted env k := by
  induction h with
  | marker h1 h2 => exact quoted_reads h2.1 (h1.adv.suffix.trans i)
  | flag h1 h2 _ _ ih => exact ih (h2.adv.suffix.trans (h1.adv.suffix.trans i))

theorem hereErr_message {x0 m q} (i : x0 <:+ env.buf) (h : HereErr env fn x0 m q) : Message0 env fn m q := by
  cases h with
  | trail _ h => leaves; exact trailErr_message (by assumption) h
  | marker => listed
  | body h1 => exact .marker (quoted_marker h1 i)

theorem argErr_message {c filter ra x0 m q} (i : x0 <:+ env.buf) (h : ArgErr env fn c filter ra x0 m q) : Message0 env fn m q := by
  cases h with
  | raw _ h => leaves; exact rawErr_message (by assumption) h
  | wincmd _ h => leaves; exact winErr_message (by assumption) h
  | function _ h => leaves; exact funcErr_message (by assumption) h
  | funcListing _ _ h => leaves; exact rawErr_message (by assumption) h
  | delfunction _ h => leaves; exact funcNameErr_message (by assumption) h
  | return_ _ _ _ h => leaves; exact gErr_message (by assumption) h
  | call _ _ _ h => leaves; exact gErr_message (by assumption) h
  | letLeft _ _ _ h => leaves; exact lhsErr_message (fun _ _ _ => targetErr_message) (by assumption) h
  | letListing _ _ h => leaves; exact rawErr_message (by assumption) h
  | let_ _ _ _ _ _ h => leaves; exact gErr_message (by assumption) h
  | heredoc _ _ _ h => leaves; exact hereErr_message (by assumption) h
  | constLeft _ _ _ h => leaves; exact lhsErr_message (fun _ _ _ => constErr_message) (by assumption) h
  | constListing _ _ h => leaves; exact rawErr_message (by assumption) h
  | const_ _ _ _ h => leaves; exact gErr_message (by assumption) h
  | unlet _ h => leaves; exact lockErr_message (by assumption) h
  | lock _ _ h => leaves; exact lockErr_message (by assumption) h
  | expr _ h => leaves; exact gErr_message (by assumption) h
  | exprs _ h => leaves; exact exprsErr_message (by assumption) h
  | forLeft _ h => leaves; exact lhsErr_message (fun _ _ _ => targetErr_message) (by assumption) h
  | for_ _ _ _ _ h => leaves; exact gErr_message (by assumption) h
  | _ => leaves; listed

theorem misplaced_message {cx b x0 m q} (h : Misplaced cx b x0 m) : Message0 env fn m q := by
  cases h with
  | _ => leaves; listed

theorem unclosed_message {x0 m q} (h : Unclosed x0 m) : Message0 env fn m q := by
  cases h with
  | _ => leaves; listed

theorem lineErr_message0 {nv cx b used x0 m q} (i : x0 <:+ env.buf) (h : LineErr nv env fn cx b used x0 m q) :
    Message0 env fn m q ∨ BadName nv env used x0 m q := by
  cases h with
  | head h => leaves; exact headErr_message (by assumption) h
  | place _ h => left; leaves; exact misplaced_message h
  | args _ _ h => left; leaves; exact argErr_message (by assumption) h
  | trail h1 _ h2 h => left; exact trailErr_message ((leaves_done h1 h2).trans i) h

theorem lineErr_message {nv cx b used x0 m q} (i : x0 <:+ env.buf) (h : LineErr nv env fn cx b used x0 m q) : Message env fn m q :=
  (lineErr_message0 i h).elim Message0.message (badName_message i)

theorem leaves_none {r r' : List Cell} {a : Unit} (h : NoArgs r a r') : r' <:+ r := by
  cases h; exact List.suffix_rfl

theorem leaves_catch {r r' : List Cell} {p : Str} (h : CatchArg r p r') : r' <:+ r := by
  cases h with
  | none a => exact a.adv.suffix
  | pat a _ b c => exact (c.adv.suffix.trans b.suf).trans a.adv.suffix

theorem front_suffix {nv cx b used} {r : List Cell} (h : Front nv env fn cx b used r) : r <:+ env.buf := by
  have o : ∀ {α : Type} {n} {A : List Cell → α → List Cell → Prop} {used r ea a cm used' r'},
      (∀ {r a r'}, A r a r' → r' <:+ r) → r <:+ env.buf → Spec.Opens nv env fn n A used r ea a cm used' r' →
      r' <:+ env.buf := fun hA i h => (opens_suf hA h).trans i
  induction h with
  | start => exact List.suffix_rfl
  | lines _ h ih => exact (body_order h).suffix.trans ih
  | function _ h ih => exact o (fun h => (funcHead_track h).1.suffix) ih h
  | while_ _ h ih => exact o leaves_gram ih h
  | for_ _ h ih =>
    refine o (fun h => ?_) ih h
    cases h with
    | mk a b c d => exact (((leaves_gram d).trans c.adv.suffix).trans b.adv.suffix).trans (leaves_lhs leaves_target a)
  | if_ _ h ih => exact o leaves_gram ih h
  | try_ _ h ih => exact o leaves_none ih h
  | elseif _ _ h ih => exact o leaves_gram ih h
  | else_ _ _ h ih => exact o leaves_none ih h
  | catch_ _ _ h ih => exact o leaves_catch ih h
  | finally_ _ _ h ih => exact o leaves_none ih h

theorem fileErr_message {nv m q} (h : FileErr nv env fn m q) : Message env fn m q := by
  cases h with
  | line h1 h => exact lineErr_message (front_suffix h1) h
  | unclosed _ h => exact (unclosed_message h).message

end Viml
