/-
The encoder writes the fields of the tree.
-/
import Verif.Spec.JsonFields
import Verif.Model.Json

namespace Viml
open Spec

theorem fields_nil (ms : List (Str × Json)) : Fields [] ms ↔ ms = [] := by
  cases ms with
  | nil => exact ⟨fun _ => rfl, fun _ => trivial⟩
  | cons m ms => exact ⟨fun h => h.elim, fun h => nomatch h⟩

theorem fields_cons (k : Str) (P : Json → Prop) (fs : List (Str × (Json → Prop))) (ms : List (Str × Json)) :
    Fields ((k, P) :: fs) ms ↔ ∃ w, P w ∧ ∃ ms', Fields fs ms' ∧ ms = (k, w) :: ms' := by
  cases ms with
  | nil => exact ⟨fun h => h.elim, fun ⟨_, _, _, _, h⟩ => nomatch h⟩
  | cons m ms =>
    obtain ⟨k', w⟩ := m
    constructor
    · rintro ⟨rfl, h1, h2⟩
      exact ⟨w, h1, ms, h2, rfl⟩
    · rintro ⟨w', h1, ms', h2, h⟩
      injection h with ha hb
      injection ha with hc hd
      subst hc hd hb
      exact ⟨rfl, h1, h2⟩

theorem all_iff {α : Type} {P : α → Json → Prop} {f : α → Json} (h : ∀ a v, P a v ↔ v = f a) :
    ∀ (as : List α) (vs : List Json), All P as vs ↔ vs = as.map f
  | [], [] => ⟨fun _ => rfl, fun _ => trivial⟩
  | [], _ :: _ => ⟨fun h => h.elim, fun h => nomatch h⟩
  | _ :: _, [] => ⟨fun h => h.elim, fun h => nomatch h⟩
  | a :: as, v :: vs => by
    simp only [All, h, all_iff h as vs, List.map_cons, List.cons.injEq]

theorem opt_iff {α : Type} {P : α → Json → Prop} {f : α → Json} (h : ∀ a v, P a v ↔ v = f a) (a : Option α) (v : Json) :
    OrNull P a v ↔ v = Json.opt f a := by
  cases a with
  | none => exact Iff.rfl
  | some a => exact h a v

theorem isPos_iff (q : Ast.Pos) (v : Json) : IsPos q v ↔ v = Json.pos q := by
  simp [IsPos, Rec, fields_cons, fields_nil, IsNum, IsStr, Json.pos]

theorem tokenNo_eq (t : Tok) : tokenNo t = t.ctorIdx := by cases t <;> rfl

theorem isTok_iff (t : Tok) (v : Json) : IsTok t v ↔ v = Json.tok t := by
  simp only [IsTok, Json.tok, tokenNo_eq]

theorem flagWord_eq (f : Flag) : flagWord f = Json.flagName f := by cases f <;> rfl

theorem flags_words : ∀ l : List Flag, List.intercalate ['|'] (l.map flagWord) = Json.flags l
  | [] => rfl
  | [f] => by simp [Json.flags, List.intercalate, flagWord_eq]
  | f :: g :: fs => by
    have ih := flags_words (g :: fs)
    simp only [List.map_cons] at ih
    simp only [List.map_cons, Json.flags, ← ih, ← flagWord_eq]
    simp [List.intercalate]

theorem isCmd_iff (c : Cmd) (v : Json) : IsCmd c v ↔ v = Json.cmd c := by
  simp [IsCmd, Rec, fields_cons, fields_nil, IsNum, IsStr, Json.cmd, flags_words]

theorem isModifier_iff (m : Modifier) (v : Json) : IsModifier m v ↔ v = Json.modifier m := by
  rcases m with ⟨n, _ | b, _ | c⟩ <;>
    simp [IsModifier, Rec, fields_cons, fields_nil, IsNum, IsStr, Json.modifier]

theorem isStr_iff (s : Str) (v : Json) : IsStr s v ↔ v = .str s := Iff.rfl

theorem isExArg_iff (ea : Ast.ExArg) (v : Json) : IsExArg ea v ↔ v = Json.exArg ea := by
  simp [IsExArg, Rec, fields_cons, fields_nil, IsNum, IsBool, IsNull, IsStr, Arr, Json.exArg, opt_iff isPos_iff,
    opt_iff isCmd_iff, all_iff isModifier_iff, all_iff isStr_iff, isPos_iff]

theorem isIdent_iff (i : Ast.Ident) (v : Json) : IsIdent i v ↔ v = Json.ident i := by
  simp [IsIdent, Rec, fields_cons, fields_nil, IsStr, Json.ident, isPos_iff]

theorem isAttr_iff (a : FuncAttr) (v : Json) : IsAttr a v ↔ v = Json.attr a := by
  simp [IsAttr, Rec, fields_cons, fields_nil, IsBool, Json.attr]

theorem isEnd_iff (k : Str) (e : Ast.EndCmd) (v : Json) : IsEnd k e v ↔ v = Json.endCmd k e := by
  simp [IsEnd, Rec, fields_cons, fields_nil, Json.endCmd, isPos_iff, isExArg_iff]

mutual

theorem showsE_iff (e : Ast.Expr) (v : Json) : ShowsE e v ↔ v = Json.expr e := by
  cases e with
  | ident i => exact isIdent_iff i v
  | ternary q c l r => simp [ShowsE, Json.expr, Rec, fields_cons, fields_nil, isPos_iff, showsE_iff c, showsE_iff l, showsE_iff r]
  | binary l q t r => simp [ShowsE, Json.expr, Rec, fields_cons, fields_nil, isPos_iff, isTok_iff, showsE_iff l, showsE_iff r]
  | unary q t x => simp [ShowsE, Json.expr, Rec, fields_cons, fields_nil, isPos_iff, isTok_iff, showsE_iff x]
  | subscript q l r => simp [ShowsE, Json.expr, Rec, fields_cons, fields_nil, isPos_iff, showsE_iff l, showsE_iff r]
  | slice x q lo hi =>
    simp [ShowsE, Json.expr, Rec, fields_cons, fields_nil, isPos_iff, showsE_iff x, showsEO_iff lo, showsEO_iff hi]
  | method l m q as =>
    simp [ShowsE, Json.expr, Rec, fields_cons, fields_nil, isPos_iff, showsE_iff l, showsE_iff m, argsE_iff as]
  | call f q as => simp [ShowsE, Json.expr, Rec, fields_cons, fields_nil, isPos_iff, showsE_iff f, argsE_iff as]
  | dot l q i => simp [ShowsE, Json.expr, Rec, fields_cons, fields_nil, isPos_iff, showsE_iff l, isIdent_iff]
  | basicLit q k s => simp [ShowsE, Json.expr, Rec, fields_cons, fields_nil, isPos_iff, isTok_iff, IsStr]
  | list q vs => simp [ShowsE, Json.expr, Rec, fields_cons, fields_nil, isPos_iff, argsE_iff vs]
  | dict q kvs => simp [ShowsE, Json.expr, Rec, fields_cons, fields_nil, isPos_iff, Arr, showsPs_iff kvs]
  | curlyName q ps => simp [ShowsE, Json.expr, Rec, fields_cons, fields_nil, isPos_iff, argsE_iff ps]
  | curlyNameLit q s => simp [ShowsE, Json.expr, Rec, fields_cons, fields_nil, isPos_iff, IsStr]
  | curlyNameExpr q x => simp [ShowsE, Json.expr, Rec, fields_cons, fields_nil, isPos_iff, showsE_iff x]
  | lambda q ps x =>
    simp [ShowsE, Json.expr, Rec, fields_cons, fields_nil, isPos_iff, Arr, all_iff isIdent_iff, showsE_iff x]
  | paren q x => simp [ShowsE, Json.expr, Rec, fields_cons, fields_nil, isPos_iff, showsE_iff x]
  | heredoc q fl m b =>
    simp [ShowsE, Json.expr, Rec, fields_cons, fields_nil, isPos_iff, Arr, IsStr, showsEs_iff fl, argsE_iff b]

theorem showsEO_iff (e : Option Ast.Expr) (v : Json) : ShowsEO e v ↔ v = Json.exprO e := by
  cases e with
  | none => exact Iff.rfl
  | some e => exact showsE_iff e v

theorem showsEs_iff (l : List Ast.Expr) (vs : List Json) : ShowsEs l vs ↔ vs = Json.exprs l := by
  cases l with
  | nil => exact Iff.rfl
  | cons e es => simp [ShowsEs, Json.exprs, showsE_iff e, showsEs_iff es]

theorem argsE_iff (l : List Ast.Expr) (v : Json) : Slice l.isEmpty (ShowsEs l) v ↔ v = Json.nilArr (Json.exprs l) := by
  cases l with
  | nil => rfl
  | cons e es => simp [Slice, Arr, ShowsEs, Json.exprs, Json.nilArr, showsE_iff e, showsEs_iff es]

theorem showsPs_iff (l : List (Ast.Expr × Ast.Expr)) (vs : List Json) : ShowsPs l vs ↔ vs = Json.pairs l := by
  cases l with
  | nil => exact Iff.rfl
  | cons e es =>
    obtain ⟨k, x⟩ := e
    simp [ShowsPs, Json.pairs, Rec, fields_cons, fields_nil, showsE_iff k, showsE_iff x, showsPs_iff es]

end

mutual

theorem showsS_iff (s : Ast.Stmt) (v : Json) : ShowsS s v ↔ v = Json.stmt s := by
  cases s with
  | comment q t => simp [ShowsS, Json.stmt, Rec, fields_cons, fields_nil, isPos_iff, IsNull, IsStr]
  | excmd q ea s => simp [ShowsS, Json.stmt, Rec, fields_cons, fields_nil, isPos_iff, isExArg_iff, IsStr]
  | function q ea b n ps ds a e =>
    simp [ShowsS, Json.stmt, Rec, fields_cons, fields_nil, isPos_iff, isExArg_iff, body_iff b, showsE_iff, Arr,
      all_iff isIdent_iff, showsEs_iff, isAttr_iff, isEnd_iff]
  | delFunction q ea n => simp [ShowsS, Json.stmt, Rec, fields_cons, fields_nil, isPos_iff, isExArg_iff, showsE_iff]
  | return_ q ea r => simp [ShowsS, Json.stmt, Rec, fields_cons, fields_nil, isPos_iff, isExArg_iff, showsEO_iff]
  | exCall q ea f p as =>
    simp [ShowsS, Json.stmt, Rec, fields_cons, fields_nil, isPos_iff, isExArg_iff, showsE_iff, argsE_iff]
  | let_ q ea op l ls rs r =>
    simp [ShowsS, Json.stmt, Rec, fields_cons, fields_nil, isPos_iff, isExArg_iff, IsStr, showsEO_iff, argsE_iff, showsE_iff]
  | unLet q ea l => simp [ShowsS, Json.stmt, Rec, fields_cons, fields_nil, isPos_iff, isExArg_iff, argsE_iff]
  | lockVar q ea d l => simp [ShowsS, Json.stmt, Rec, fields_cons, fields_nil, isPos_iff, isExArg_iff, IsNum, argsE_iff]
  | unLockVar q ea d l => simp [ShowsS, Json.stmt, Rec, fields_cons, fields_nil, isPos_iff, isExArg_iff, IsNum, argsE_iff]
  | if_ q ea b c ei el e =>
    simp [ShowsS, Json.stmt, Rec, fields_cons, fields_nil, isPos_iff, isExArg_iff, body_iff b, body_iff ei, showsE_iff,
      showsSO_iff el, isEnd_iff]
  | elseIf q ea b c => simp [ShowsS, Json.stmt, Rec, fields_cons, fields_nil, isPos_iff, isExArg_iff, body_iff b, showsE_iff]
  | else_ q ea b => simp [ShowsS, Json.stmt, Rec, fields_cons, fields_nil, isPos_iff, isExArg_iff, body_iff b]
  | while_ q ea b c e =>
    simp [ShowsS, Json.stmt, Rec, fields_cons, fields_nil, isPos_iff, isExArg_iff, body_iff b, showsE_iff, isEnd_iff]
  | for_ q ea b l ls rs r e =>
    simp [ShowsS, Json.stmt, Rec, fields_cons, fields_nil, isPos_iff, isExArg_iff, body_iff b, showsEO_iff, argsE_iff,
      showsE_iff, isEnd_iff]
  | continue_ q ea => simp [ShowsS, Json.stmt, Rec, fields_cons, fields_nil, isPos_iff, isExArg_iff]
  | break_ q ea => simp [ShowsS, Json.stmt, Rec, fields_cons, fields_nil, isPos_iff, isExArg_iff]
  | try_ q ea b cs fi e =>
    simp [ShowsS, Json.stmt, Rec, fields_cons, fields_nil, isPos_iff, isExArg_iff, body_iff b, body_iff cs, showsSO_iff fi,
      isEnd_iff]
  | catch_ q ea b p => simp [ShowsS, Json.stmt, Rec, fields_cons, fields_nil, isPos_iff, isExArg_iff, body_iff b, IsStr]
  | finally_ q ea b => simp [ShowsS, Json.stmt, Rec, fields_cons, fields_nil, isPos_iff, isExArg_iff, body_iff b]
  | throw q ea e => simp [ShowsS, Json.stmt, Rec, fields_cons, fields_nil, isPos_iff, isExArg_iff, showsE_iff]
  | eval q ea e => simp [ShowsS, Json.stmt, Rec, fields_cons, fields_nil, isPos_iff, isExArg_iff, showsE_iff]
  | echoCmd q n ea l => simp [ShowsS, Json.stmt, Rec, fields_cons, fields_nil, isPos_iff, isExArg_iff, IsStr, argsE_iff]
  | echohl q ea n => simp [ShowsS, Json.stmt, Rec, fields_cons, fields_nil, isPos_iff, isExArg_iff, IsStr]
  | execute q ea l => simp [ShowsS, Json.stmt, Rec, fields_cons, fields_nil, isPos_iff, isExArg_iff, argsE_iff]

theorem showsSO_iff (s : Option Ast.Stmt) (v : Json) : ShowsSO s v ↔ v = Json.stmtO s := by
  cases s with
  | none => exact Iff.rfl
  | some s => exact showsS_iff s v

theorem showsSs_iff (l : List Ast.Stmt) (vs : List Json) : ShowsSs l vs ↔ vs = Json.stmts l := by
  cases l with
  | nil => exact Iff.rfl
  | cons s ss => simp [ShowsSs, Json.stmts, showsS_iff s, showsSs_iff ss]

theorem body_iff (l : List Ast.Stmt) (v : Json) : Slice l.isEmpty (ShowsSs l) v ↔ v = Json.nilArr (Json.stmts l) := by
  cases l with
  | nil => rfl
  | cons s ss => simp [Slice, Arr, ShowsSs, Json.stmts, Json.nilArr, showsS_iff s, showsSs_iff ss]

end

theorem shows_iff (f : Ast.File) (v : Json) : Shows f v ↔ v = Json.file f := by
  simp [Shows, Json.file, Rec, fields_cons, fields_nil, isPos_iff, body_iff]

theorem mem_of_lookup {k : Str} {w : Json} : ∀ {ms : List (Str × Json)}, ms.lookup k = some w → (k, w) ∈ ms
  | [], h => nomatch h
  | (k', w') :: ms, h => by
    rw [List.lookup_cons] at h
    by_cases hk : k = k'
    · subst hk
      simp only [beq_self_eq_true, Option.some.injEq] at h
      exact h ▸ List.mem_cons_self
    · have : (k == k') = false := by simpa using hk
      simp only [this] at h
      exact List.mem_cons_of_mem _ (mem_of_lookup h)

/-- The value of a member is found by its name. -/
theorem member_of {k : Str} {P : Json → Prop} : ∀ {fs : List (Str × (Json → Prop))} {ms : List (Str × Json)},
    Fields fs ms → (ms.map (·.1)).Nodup → (k, P) ∈ fs → ∃ w, member (.obj ms) k = some w ∧ P w
  | [], _, _, _, hm => nomatch hm
  | (k', P') :: fs, ms, h, hn, hm => by
    obtain ⟨w, h1, ms', h2, rfl⟩ := (fields_cons ..).1 h
    simp only [List.map_cons, List.nodup_cons] at hn
    simp only [member, List.lookup_cons]
    rcases List.mem_cons.1 hm with he | he
    · injection he with ha hb
      subst ha hb
      exact ⟨w, by simp, h1⟩
    · obtain ⟨w', h3, h4⟩ := member_of h2 hn.2 he
      have hne : k ≠ k' := by
        rintro rfl
        apply hn.1
        simp only [member] at h3
        exact List.mem_map.2 ⟨(k, w'), mem_of_lookup h3, rfl⟩
      have : (k == k') = false := by simpa using hne
      simp only [this]
      exact ⟨w', h3, h4⟩

end Viml
