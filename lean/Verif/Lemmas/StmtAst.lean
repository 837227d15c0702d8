/-
What holds of the public tree of every file the parser returns.
-/
import Verif.Lemmas.ExprAst
import Verif.Lemmas.StmtSound
import Verif.Lemmas.StmtSteps
import Verif.Spec.Stmt

namespace Viml
open Prog Spec

/-! ### Commands and their handlers -/

/-- Commands with a handler of their own. -/
def nameTable : List (Str × Handler) := [
  (cs!"append", .append), (cs!"insert", .append), (cs!"break", .break_), (cs!"call", .call),
  (cs!"catch", .catch_), (cs!"continue", .continue_), (cs!"delfunction", .delfunction),
  (cs!"echo", .echo), (cs!"echoerr", .echoerr), (cs!"echohl", .echohl), (cs!"echomsg", .echomsg),
  (cs!"echon", .echon), (cs!"else", .else_), (cs!"elseif", .elseif), (cs!"endfor", .endfor),
  (cs!"endfunction", .endfunction), (cs!"endif", .endif), (cs!"endtry", .endtry),
  (cs!"endwhile", .endwhile), (cs!"execute", .execute), (cs!"finally", .finally_),
  (cs!"finish", .finish), (cs!"for", .for_), (cs!"function", .function), (cs!"if", .if_),
  (cs!"let", .let_), (cs!"const", .const_), (cs!"loadkeymap", .loadkeymap), (cs!"lockvar", .lockvar),
  (cs!"lua", .lua), (cs!"mzscheme", .lua), (cs!"perl", .lua), (cs!"py3", .lua), (cs!"python3", .lua),
  (cs!"python", .lua), (cs!"ruby", .lua), (cs!"tcl", .lua), (cs!"return", .return_),
  (cs!"throw", .throw), (cs!"eval", .eval), (cs!"try", .try_), (cs!"unlet", .unlet),
  (cs!"unlockvar", .unlockvar), (cs!"while", .while_), (cs!"wincmd", .wincmd), (cs!"syntax", .syntax)]

def byName (n : Str) : Handler := (nameTable.lookup n).getD .common

/-- The second, shadowed table entry of `:const` is an ordinary command. -/
theorem table_byName : (builtinCommands ++ neovimAdditionalCommands).all
    (fun c => decide (dispatch c.parser = some (byName c.name) ∨
      c.name = cs!"const" ∧ dispatch c.parser = some .common)) = true := by decide +kernel

theorem nameTable_lower : nameTable.all (fun x => !startsUpper x.1) = true := by decide +kernel

theorem lookup_upper {l : List (Str × Handler)} {n : Str} (h : l.all (fun x => !startsUpper x.1) = true)
    (hn : startsUpper n = true) : l.lookup n = none := by
  induction l with
  | nil => rfl
  | cons x l ih =>
    simp only [List.all_cons, Bool.and_eq_true, Bool.not_eq_true'] at h
    have : (n == x.1) = false := by
      rw [beq_eq_false_iff_ne]
      rintro rfl
      rw [hn] at h
      exact absurd h.1 (by simp)
    rw [List.lookup_cons, this]
    exact ih h.2

theorem Known.dispatch {c : Cmd} (h : Known c) : dispatch c.parser = some (byName c.name) ∨
    c.name = cs!"const" ∧ dispatch c.parser = some .common := by
  have ht := List.all_eq_true.mp table_byName
  rcases h with h | h | ⟨h, e⟩
  · simpa using ht c (by simp [h])
  · simpa using ht c (by simp [h])
  · left
    have h1 : byName c.name = .common := by
      unfold byName
      rw [lookup_upper nameTable_lower h]
      rfl
    rw [h1, e]
    show Viml.dispatch cs!"parse_cmd_usercmd" = some .common
    decide +kernel

theorem CmdIs.byName {ea : ExArg} {h : Handler} (hc : CmdIs ea h) :
    ∃ c, ea.cmd = some c ∧ Known c ∧ (byName c.name = h ∨ c.name = cs!"const" ∧ h = .common) := by
  obtain ⟨c, h1, h2, h3⟩ := hc
  refine ⟨c, h1, h2, ?_⟩
  rcases h2.dispatch with h4 | ⟨h4, h5⟩
  · rw [h4] at h3
    exact Or.inl (Option.some.inj h3)
  · rw [h5] at h3
    exact Or.inr ⟨h4, (Option.some.inj h3).symm⟩

theorem byName_mem {n : Str} {h : Handler} (hb : byName n = h) (hh : h ≠ .common) :
    (n, h) ∈ nameTable := by
  unfold byName at hb
  cases e : nameTable.lookup n with
  | none => rw [e] at hb; exact absurd hb.symm hh
  | some x =>
    rw [e] at hb
    cases hb
    exact lookup_mem e

/-- Names of the commands with handler `h`. -/
theorem CmdIs.mem {ea : ExArg} {h : Handler} (hc : CmdIs ea h) (hh : h ≠ .common := by simp) :
    ∃ c, ea.cmd = some c ∧ (c.name, h) ∈ nameTable := by
  obtain ⟨c, h1, _, h3⟩ := hc.byName
  rcases h3 with h3 | ⟨_, h3⟩
  · exact ⟨c, h1, byName_mem h3 hh⟩
  · exact absurd h3 hh

theorem nodeOnly_byName : nodeOnly.all (fun n => !(keepsLine (byName n) || byName n == .append ||
    byName n == .loadkeymap)) = true := by decide +kernel

theorem append_byName : [cs!"append", cs!"insert"].all (fun n => byName n == .append) = true := by
  decide +kernel

theorem loadkeymap_byName : byName cs!"loadkeymap" = .loadkeymap := by decide +kernel

theorem script_byName : scriptCmds.all (fun n => byName n == .lua) = true := by decide +kernel

section
variable {env : Env} {fn : Str}

/-! ### Ex arguments -/

theorem Known.pub {c : Cmd} (h : Known c) : KnownCmd c := by
  rcases h with h | h | ⟨h, e⟩
  · exact Or.inl h
  · exact Or.inr (Or.inl h)
  · refine Or.inr (Or.inr ?_)
    cases hn : c.name with
    | nil => rw [hn] at h; simp [startsUpper] at h
    | cons u t =>
      rw [hn] at h
      simp only [startsUpper, isUpperC, Bool.and_eq_true, decide_eq_true_eq] at h
      refine ⟨u, t, rfl, ⟨?_, ?_⟩, by rw [e]⟩
      · rw [Char.le_def, UInt32.le_iff_toNat_le]; exact h.1
      · rw [Char.le_def, UInt32.le_iff_toNat_le]; exact h.2

theorem Adv.reads {r r' : List Cell} (h : Adv r r') : ∃ v, Reads r v r' := Reads.of_adv h

theorem ArgIs.pub {ea : ExArg} {r : List Cell} (h : ArgIs env ea r) :
    ArgAt env fn (Export.exArg fn ea) r :=
  ⟨Export.pos fn (posOf env r), by simp [Export.exArg, h.2], at_of h.1⟩

theorem ArgOn.pub {ea : ExArg} {r : List Cell} (h : ArgOn env ea r) :
    ArgIn env fn (Export.exArg fn ea) r := by
  obtain ⟨ra, h1, h2, h3⟩ := h
  obtain ⟨v, hv⟩ := h3.reads
  exact ⟨ra, v, ArgIs.pub ⟨h1, h2⟩, hv⟩

theorem lineAt_of {ea : ExArg} (h : EaOK env ea) (hk : ∀ c, ea.cmd = some c → Known c) :
    LineAt env fn (Export.exArg fn ea) := by
  obtain ⟨r0, rc, h⟩ := h
  obtain ⟨rm, rr, v, w, m1, m2, m3, m4, m5, m6⟩ := h.mods
  obtain ⟨m, hm⟩ := m2.reads
  have hsc : Suf env rc := m5.adv.suf (m3.adv.suf (m2.suf h.suf))
  refine ⟨r0, m, rm, v, rr, w, rc, ⟨h.suf, by rw [← h.line]; rfl⟩, hm, m1, m3, m4, m5, m6,
    ⟨hsc, by rw [← h.cmd]; rfl⟩, ?_⟩
  show match ea.cmd with | none => _ | some c => _
  cases hc : ea.cmd with
  | none => simp [Export.exArg, h.none_ hc]
  | some c =>
    obtain ⟨ra, h1, h2⟩ := h.name c hc
    have hsa : Suf env ra := by
      obtain ⟨t, b, w, h3, _⟩ := h2
      exact h3.adv.suf hsc
    exact ⟨(hk c hc).pub, ra, ArgIs.pub ⟨hsa, h1⟩, h2⟩

theorem LineAt.real {ea : Ast.ExArg} (h : LineAt env fn ea) : ∀ q ∈ exArgPos ea, Real env fn q := by
  obtain ⟨r0, m, rm, g, rr, w, rc, h1, _, _, _, _, _, _, h2, h3⟩ := h
  intro q hq
  simp only [exArgPos, List.cons_append, List.nil_append, List.mem_cons, Option.mem_toList] at hq
  rcases hq with rfl | rfl | hq
  · exact h1.real
  · exact h2.real
  · cases hc : ea.cmd with
    | none => rw [hc] at h3; rw [h3] at hq; simp at hq
    | some c =>
      rw [hc] at h3
      obtain ⟨_, ra, ⟨q', h4, h5⟩, _⟩ := h3
      rw [h4] at hq
      cases hq
      exact h5.real

theorem CmdIs.known {ea : ExArg} {h : Handler} (hc : CmdIs ea h) : ∀ c, ea.cmd = some c → Known c := by
  obtain ⟨c', h1, h2, _⟩ := hc
  intro c h3
  rw [h1] at h3
  cases h3
  exact h2

/-! ### The invariant of statements -/

/-- Expressions of statements. -/
def GdE (env : Env) (fn : Str) (e : Ast.Expr) : Prop :=
  1 ≤ level e ∧ AllE (OkE env fn) (litKey env fn) e

theorem GdE.noHere {e : Ast.Expr} (h : GdE env fn e) : isHeredoc e = false := by
  cases e <;> first | rfl | (have := h.1; simp [level] at this)

/-- All properties of a statement at once. -/
structure OkS (env : Env) (fn : Str) (ctx : List Kind) (s : Ast.Stmt) : Prop where
  start : ∀ ea, exArgOf s = some ea → stmtPos s = ea.cmdpos ∧ LineAt env fn ea
  end_ : ∀ e, endOf s = some e → e.pos = e.ea.cmdpos ∧ LineAt env fn e.ea
  name : nameOK s
  exprs : ∀ e ∈ exprsOf s, isHeredoc e = false → GdE env fn e
  ctx : ctxOK ctx s
  parts : partsOK s
  targets : targetsOK s
  sig : sigOK env fn s
  text : textOK env fn s

local notation "D" => Der env (Good env fn)
local notation "DE" => DerE env (Good env fn)

theorem DerE.good {e : VExpr} (h : DE e) : ∃ a, Export.expr fn e = some a ∧ GdE env fn a := by
  obtain ⟨r, r', h⟩ := h
  obtain ⟨a, h1, h2, h3⟩ := h.p
  exact ⟨a, h1, h2, h3⟩

theorem exprs_good {l : List VExpr} (h : ∀ e ∈ l, DE e) :
    ∃ as, Export.exprs fn l = some as ∧ as.length = l.length ∧ ∀ a ∈ as, GdE env fn a := by
  induction l with
  | nil => exact ⟨[], rfl, rfl, by simp⟩
  | cons e l ih =>
    rw [List.forall_mem_cons] at h
    obtain ⟨a, h1, h2⟩ := DerE.good h.1
    obtain ⟨as, k1, k2, k3⟩ := ih h.2
    exact ⟨a :: as, by simp [Export.exprs, h1, k1], by simp [k2], by simpa using ⟨h2, k3⟩⟩

theorem exprOpt_good {o : Option VExpr} (h : ∀ e, o = some e → DE e) :
    ∃ a, Export.exprOpt fn o = some a ∧ ∀ e ∈ a, GdE env fn e := by
  cases o with
  | none => exact ⟨none, rfl, by simp⟩
  | some e =>
    obtain ⟨a, h1, h2⟩ := DerE.good (h e rfl)
    exact ⟨some a, by simp [Export.exprOpt, h1], by simpa using h2⟩

/-! ### Targets -/

theorem isVarBody_spec {s : Str} (h : isVarBody s = true) :
    ∃ c t, s = c :: t ∧ (isalpha c = true ∨ c = '_') ∧ ∀ x ∈ t, varChar x = true := by
  cases s with
  | nil => simp [isVarBody] at h
  | cons c t =>
    simp only [isVarBody, iswordc1, iswordc, Bool.and_eq_true, Bool.or_eq_true, beq_iff_eq, List.all_eq_true] at h
    refine ⟨c, t, rfl, h.1, fun x hx => ?_⟩
    simpa [varChar, or_assoc] using h.2 x hx

theorem isvarname_spec {v : Str} (h : isvarname v = true) : VarName v := by
  unfold isvarname at h
  split at h
  · simp at h
  · obtain ⟨c, t, h1, h2, h3⟩ := isVarBody_spec h
    exact Or.inr ⟨[], c, t, h1, Or.inl rfl, h2, h3⟩
  · rename_i c d cs
    split at h
    · rename_i hc
      simp only [isScopeC, List.contains_iff_mem, Bool.and_eq_true, beq_iff_eq] at hc
      obtain ⟨hc, rfl⟩ := hc
      rw [Bool.or_eq_true] at h
      rcases h with h | h
      · rw [List.isEmpty_iff] at h
        subst h
        exact Or.inl ⟨c, rfl, hc⟩
      · obtain ⟨c', t, rfl, h2, h3⟩ := isVarBody_spec h
        exact Or.inr ⟨[c, ':'], c', t, rfl, Or.inr ⟨c, rfl, hc⟩, h2, h3⟩
    · obtain ⟨c', t, h1, h2, h3⟩ := isVarBody_spec h
      exact Or.inr ⟨[], c', t, h1, Or.inl rfl, h2, h3⟩

theorem funcTarget_of {e : VExpr} {a : Ast.Expr} (h : isLvalueFunc e = true)
    (ha : Export.expr fn e = some a) : funcTarget a := by
  cases e <;> simp [isLvalueFunc] at h
  case atom q t v =>
    simp only [Export.expr, Option.some.injEq] at ha
    subst ha
    cases t <;> simp at h <;> simp [Export.atom, funcTarget]
  all_goals
    simp only [Export.expr, Option.bind_eq_bind, Option.bind_eq_some_iff] at ha
  case curlyname =>
    obtain ⟨_, _, ha⟩ := ha
    split at ha <;> simp at ha
    subst ha; trivial
  case subscript => obtain ⟨_, _, _, _, ha⟩ := ha; cases ha; trivial
  case dot => obtain ⟨_, _, ha⟩ := ha; cases ha; trivial

/-- Only plain names convert to identifiers. -/
theorem expr_ident {e : VExpr} {i : Ast.Ident} (ha : Export.expr fn e = some (.ident i)) :
    ∃ q, e = .atom q .identifier i.name := by
  cases e
  case atom q t v =>
    cases t <;> simp [Export.expr, Export.atom] at ha
    subst ha
    exact ⟨q, rfl⟩
  case method q l r =>
    cases r <;> simp [Export.expr, Option.bind_eq_some_iff] at ha
  all_goals simp [Export.expr, Option.bind_eq_some_iff] at ha

theorem target_of {e : VExpr} {a : Ast.Expr} (h : isLvalue e = true) (hb : badVarname e = none)
    (ha : Export.expr fn e = some a) : target a := by
  have : (∃ q l lo hi, e = .slice q l lo hi) ∨ isLvalueFunc e = true := by
    cases e
    case slice => exact Or.inl ⟨_, _, _, _, rfl⟩
    all_goals exact Or.inr h
  rcases this with ⟨q, l, lo, hi, rfl⟩ | h
  · simp only [Export.expr, Option.bind_eq_bind, Option.bind_eq_some_iff] at ha
    obtain ⟨_, _, _, _, _, _, ha⟩ := ha; cases ha; trivial
  · have hf := funcTarget_of h ha
    cases a <;> simp only [funcTarget] at hf <;> try trivial
    rename_i i
    obtain ⟨q, rfl⟩ := expr_ident ha
    simp only [badVarname] at hb
    refine isvarname_spec ?_
    cases hv : isvarname i.name with
    | true => rfl
    | false => rw [hv] at hb; simp at hb

theorem LvalE.good {e : VExpr} (h : LvalE env (Good env fn) e) :
    ∃ a, Export.expr fn e = some a ∧ GdE env fn a ∧ target a := by
  obtain ⟨a, h1, h2⟩ := h.1.good
  exact ⟨a, h1, h2, target_of h.2.1 h.2.2 h1⟩

theorem lvals_good {l : List VExpr} (h : ∀ e ∈ l, LvalE env (Good env fn) e) :
    ∃ as, Export.exprs fn l = some as ∧ as.length = l.length ∧ ∀ a ∈ as, GdE env fn a ∧ target a := by
  induction l with
  | nil => exact ⟨[], rfl, rfl, by simp⟩
  | cons e l ih =>
    rw [List.forall_mem_cons] at h
    obtain ⟨a, h1, h2⟩ := LvalE.good h.1
    obtain ⟨as, k1, k2, k3⟩ := ih h.2
    exact ⟨a :: as, by simp [Export.exprs, h1, k1], by simp [k2], by rw [List.forall_mem_cons]; exact ⟨h2, k3⟩⟩

theorem args_good {l : List VExpr} (h : ArgsOK env (Good env fn) l) :
    ∃ as, Export.exprs fn l = some as ∧ (∃ e l', as = e :: l' ∧ ∀ x ∈ l', target x) ∧
      ∀ a ∈ as, GdE env fn a := by
  obtain ⟨e, l', rfl, h1, h2⟩ := h
  obtain ⟨a, k1, k2⟩ := h1.good
  obtain ⟨as, j1, _, j3⟩ := lvals_good h2
  refine ⟨a :: as, by simp [Export.exprs, k1, j1], ⟨a, as, rfl, fun x hx => (j3 x hx).2⟩, ?_⟩
  rw [List.forall_mem_cons]
  exact ⟨k2, fun x hx => (j3 x hx).1⟩

/-- Left-hand sides. -/
structure LhsGood (env : Env) (fn : Str) (lhs : Lhs) (l : Option Ast.Expr) (ls : List Ast.Expr)
    (rest : Option Ast.Expr) : Prop where
  left : Export.exprOpt fn lhs.left = some l
  list : Export.exprs fn lhs.list = some ls
  rest_ : Export.exprOpt fn lhs.rest = some rest
  shape : LhsShape l ls rest
  all : ∀ e ∈ l.toList ++ ls ++ rest.toList, GdE env fn e
  src : ∀ a, l = some a → ∃ e, lhs.left = some e ∧ Export.expr fn e = some a

theorem lhs_good {lhs : Lhs} (h : LhsOK env (Good env fn) lhs) :
    ∃ l ls rest, LhsGood env fn lhs l ls rest := by
  cases h with
  | one h =>
    rename_i e
    obtain ⟨a, h1, h2, h3⟩ := h.good
    refine ⟨some a, [], none, by simp [Export.exprOpt, h1], rfl, rfl, Or.inl ⟨a, rfl, rfl, rfl, h3⟩,
      by simpa using h2, ?_⟩
    rintro _ ⟨rfl⟩
    exact ⟨e, rfl, h1⟩
  | list hne h ho =>
    rename_i l o
    obtain ⟨as, h1, h2, h3⟩ := lvals_good h
    have : ∃ a, Export.exprOpt fn o = some a ∧ ∀ e ∈ a, GdE env fn e ∧ target e := by
      cases o with
      | none => exact ⟨none, rfl, by simp⟩
      | some e =>
        obtain ⟨a, k1, k2⟩ := LvalE.good (ho e rfl)
        exact ⟨some a, by simp [Export.exprOpt, k1], by simpa using k2⟩
    obtain ⟨a, k1, k2⟩ := this
    refine ⟨none, as, a, rfl, h1, k1, Or.inr ⟨rfl, ?_, fun e he => (h3 e he).2,
      fun e he => (k2 e he).2⟩, ?_, by simp⟩
    · rintro rfl
      simp at h2
      exact hne (List.length_eq_zero_iff.mp h2.symm)
    · intro e he
      simp only [Option.toList_none, List.nil_append, List.mem_append, Option.mem_toList] at he
      rcases he with he | he
      · exact (h3 e he).1
      · exact (k2 e he).1

/-! ### Parameters of functions -/

theorem token_next (he : EnvOK env) {r : List Cell} (hs : Suf env r) {ty : TT} {t : Token}
    {r' : List Cell} (h : Tk env r ty t r') {c : Char} (hc : ∀ w, Shape ty w → w = [c])
    (h1 : ty ≠ .eof := by decide) (h2 : ty ≠ .eol := by decide) :
    ∃ w r1, Reads r w r1 ∧ White w ∧ headSym r1 = .ch c ∧ Reads r (w ++ [c]) r' := by
  obtain ⟨w, r1, k1, k2, _, k4, _⟩ := (h.at he hs).at_pos (h.2 ▸ h1) (h.2 ▸ h2)
  rw [hc _ (h.shape he hs h1 h2)] at k4
  exact ⟨w, r1, k1, k2, k4.head, k1.append k4⟩

theorem paramAt_of (he : EnvOK env) {r : List Cell} (hs : Suf env r) {ty ty' : TT} {t t' : Token}
    {r1 r' : List Cell} (h : Tk env r ty t r1) (h' : Tk env r1 ty' t' r') {c : Char} {cs : Str}
    (hcs : c ∈ cs) (hc : ∀ w, Shape ty' w → w = [c]) (h1 : ty ≠ .eof := by decide)
    (h2 : ty ≠ .eol := by decide) (h3 : ty' ≠ .eof := by decide) (h4 : ty' ≠ .eol := by decide) :
    ParamAt env fn ⟨Export.pos fn t.pos, t.value⟩ cs := by
  obtain ⟨w, r2, k1, _, k3, k4, _⟩ := (h.at he hs).at_pos (h.2 ▸ h1) (h.2 ▸ h2)
  obtain ⟨w', r3, j1, j2, j3, _⟩ := token_next he ((h.sadv he hs h1 h2).suf hs) h' hc h3 h4
  exact ⟨r2, r1, w', r3, c, by rw [k3]; exact at_of (k1.adv.suf hs), k4, j1, j2, j3, hcs⟩

/-- Parameters of a function. -/
structure FPGood (env : Env) (fn : Str) (d : Bool) (named : List Str) (r : List Cell)
    (ps : List ((Pos × Str) × Option VExpr)) (dots : List (Pos × Str)) (r' : List Cell) : Prop where
  reads : ∃ v, Reads r (v ++ [')']) r'
  dots_ : dots = [] ∨ ∃ q, dots = [(q, cs!"...")]
  nodup : (ps.map (·.1.2)).Nodup
  new : ∀ x ∈ ps, x.1.2 ∉ named
  name : ∀ x ∈ ps, isargname x.1.2 = true ∧ x.1.2 ≠ cs!"firstline" ∧ x.1.2 ≠ cs!"lastline"
  split : ∃ a b, ps = a ++ b ∧ (d = true → a = []) ∧
    (∀ x ∈ a, x.2 = none ∧ ParamAt env fn ⟨Export.pos fn x.1.1, x.1.2⟩ cs!",)") ∧
    ∀ x ∈ b, (∃ e, x.2 = some e ∧ DerE env (Good env fn) e) ∧
      ParamAt env fn ⟨Export.pos fn x.1.1, x.1.2⟩ cs!"="
  dotsAt : ∀ x ∈ dots, ParamAt env fn ⟨Export.pos fn x.1, x.2⟩ cs!")"

theorem opt_param (he : EnvOK env) {r : List Cell} (hs : Suf env r) {t t' : Token} {r1 r2 r3 : List Cell}
    {o : Option VExpr} {ty : TT} (ht : Tk env r .identifier t r1)
    (ho : o = none ∧ r2 = r1 ∨ ∃ e t2 r3, o = some e ∧ Tk env r1 .eq t2 r3 ∧ Der env (Good env fn) 1 r3 e r2)
    (ht' : Tk env r2 ty t' r3) (hty : ty = .comma ∨ ty = .pclose) :
    (o = none ∧ ParamAt env fn ⟨Export.pos fn t.pos, t.value⟩ cs!",)" ∨
      (∃ e, o = some e ∧ DerE env (Good env fn) e) ∧
        ParamAt env fn ⟨Export.pos fn t.pos, t.value⟩ cs!"=") ∧ Adv r r2 ∧ Suf env r2 := by
  have a1 := ht.sadv he hs
  rcases ho with ⟨rfl, rfl⟩ | ⟨e, t2, r4, rfl, h1, h2⟩
  · refine ⟨Or.inl ⟨rfl, ?_⟩, a1.adv, a1.suf hs⟩
    rcases hty with rfl | rfl
    · exact paramAt_of he hs ht ht' (c := ',') (by simp) (fun w h => h)
    · exact paramAt_of he hs ht ht' (c := ')') (by simp) (fun w h => h)
  · have a2 := h1.sadv he (a1.suf hs)
    exact ⟨Or.inr ⟨⟨e, rfl, _, _, h2⟩, paramAt_of he hs ht h1 (c := '=') (by simp) (fun w h => h)⟩,
      (a1.adv.trans a2.adv).trans h2.adv.adv, h2.suf'⟩

theorem fparams_good (he : EnvOK env) {d : Bool} {named : List Str} {r : List Cell}
    {ps : List ((Pos × Str) × Option VExpr)} {dots : List (Pos × Str)} {r' : List Cell} (hs : Suf env r)
    (h : FParams env (Good env fn) d named r ps dots r') : FPGood env fn d named r ps dots r' := by
  induction h with
  | close ht =>
    obtain ⟨w, r1, _, _, _, h2⟩ := token_next he hs ht (c := ')') (fun w h => h)
    exact ⟨⟨w, h2⟩, Or.inl rfl, .nil, by simp, by simp, ⟨[], [], rfl, by simp, by simp, by simp⟩, by simp⟩
  | dots ht ht' =>
    rename_i t _ _ _
    have a1 := ht.sadv he hs
    obtain ⟨w, r1, _, _, _, h2⟩ := token_next he (a1.suf hs) ht' (c := ')') (fun w h => h)
    obtain ⟨v, hv⟩ := a1.adv.reads
    have hval : t.value = cs!"..." := ht.shape he hs
    refine ⟨⟨v ++ w, ?_⟩, Or.inr ⟨t.pos, by rw [hval]⟩, .nil, by simp, by simp,
      ⟨[], [], rfl, by simp, by simp, by simp⟩, ?_⟩
    · rw [List.append_assoc]; exact hv.append h2
    · simpa using paramAt_of he hs ht ht' (c := ')') (by simp) (fun w h => h)
  | last ht h1 h2 h3 h4 h5 ho ht' =>
    rename_i d named r t r1 r2 t' r' o
    obtain ⟨hp, a1, hs2⟩ := opt_param he hs ht ho ht' (Or.inr rfl)
    obtain ⟨w, _, _, _, _, h6⟩ := token_next he hs2 ht' (c := ')') (fun w h => h)
    obtain ⟨v, hv⟩ := a1.reads
    refine ⟨⟨v ++ w, ?_⟩, Or.inl rfl, by simp, by simpa using h4, by simpa using ⟨h1, h2, h3⟩, ?_, by simp⟩
    · rw [List.append_assoc]; exact hv.append h6
    · rcases hp with ⟨ho, hp⟩ | ⟨ho, hp⟩
      · refine ⟨[((t.pos, t.value), o)], [], rfl, fun hd => absurd ho (h5 hd), ?_, by simp⟩
        simpa using ⟨ho, hp⟩
      · refine ⟨[], [((t.pos, t.value), o)], rfl, by simp, by simp, ?_⟩
        intro x hx
        rw [List.mem_singleton] at hx
        subst hx
        exact ⟨ho, hp⟩
  | cons ht h1 h2 h3 h4 h5 ho ht' hr ih =>
    rename_i d named r t r1 r2 t' r3 o ps dots r'
    obtain ⟨hp, a1, hs2⟩ := opt_param he hs ht ho ht' (Or.inl rfl)
    have a2 := ht'.sadv he hs2
    obtain ⟨v, hv⟩ := (a1.trans a2.adv).reads
    have ih := ih (a2.suf hs2)
    obtain ⟨v', hv'⟩ := ih.reads
    refine ⟨⟨v ++ v', ?_⟩, ih.dots_, ?_, ?_, ?_, ?_, ih.dotsAt⟩
    · rw [List.append_assoc]; exact hv.append hv'
    · rw [List.map_cons, List.nodup_cons]
      refine ⟨fun hm => ?_, ih.nodup⟩
      obtain ⟨x, hx, e⟩ := List.mem_map.mp hm
      exact ih.new x hx (by rw [e]; simp)
    · rw [List.forall_mem_cons]
      exact ⟨h4, fun x hx hm => ih.new x hx (by simp [hm])⟩
    · rw [List.forall_mem_cons]
      exact ⟨⟨h1, h2, h3⟩, ih.name⟩
    · obtain ⟨a, b, rfl, i1, i2, i3⟩ := ih.split
      rcases hp with ⟨ho, hp⟩ | ⟨ho, hp⟩
      · refine ⟨((t.pos, t.value), o) :: a, b, rfl, fun hd => absurd ho (h5 hd), ?_, i3⟩
        rw [List.forall_mem_cons]
        exact ⟨⟨ho, hp⟩, i2⟩
      · obtain ⟨e, rfl, he'⟩ := ho
        have : a = [] := i1 (by simp)
        subst this
        refine ⟨[], ((t.pos, t.value), some e) :: b, rfl, by simp, by simp, ?_⟩
        rw [List.forall_mem_cons]
        exact ⟨⟨⟨e, rfl, he'⟩, hp⟩, i3⟩

/-- Default values come last. -/
theorem FPGood.defaults {d : Bool} {named : List Str} {r : List Cell}
    {ps : List ((Pos × Str) × Option VExpr)} {dots : List (Pos × Str)} {r' : List Cell}
    (h : FPGood env fn d named r ps dots r') :
    ∃ da, Export.exprs fn (ps.filterMap (·.2)) = some da ∧ (∀ e ∈ da, GdE env fn e) ∧
      DefaultsTail env fn (Export.idents fn (ps.map (·.1) ++ dots)) da ∧
      FuncParams ((Export.idents fn (ps.map (·.1) ++ dots)).map (·.name)) := by
  obtain ⟨a, b, rfl, _, ha, hb⟩ := h.split
  have e1 : (a ++ b).filterMap (·.2) = b.filterMap (·.2) := by
    rw [List.filterMap_append, List.filterMap_eq_nil_iff.mpr (fun x hx => (ha x hx).1), List.nil_append]
  have e2 : (b.filterMap (·.2)).length = b.length := by
    clear e1 ha h
    induction b with
    | nil => rfl
    | cons x b ih =>
      rw [List.forall_mem_cons] at hb
      obtain ⟨⟨⟨e, he, _⟩, _⟩, hb⟩ := hb
      simp [he, ih hb]
  have e3 : ∀ e ∈ b.filterMap (·.2), DerE env (Good env fn) e := by
    intro e hm
    obtain ⟨x, hx, h1⟩ := List.mem_filterMap.mp hm
    obtain ⟨e', h2, h3⟩ := (hb x hx).1
    rw [h1] at h2
    cases h2
    exact h3
  obtain ⟨da, k1, k2, k3⟩ := exprs_good e3
  refine ⟨da, by rw [e1]; exact k1, k3, ?_, ?_⟩
  · refine ⟨Export.idents fn (a.map (·.1)), Export.idents fn (b.map (·.1)), Export.idents fn dots,
      by simp [Export.idents], by simp [Export.idents, k2, e2], ?_, ?_, ?_, ?_, ?_⟩
    · rcases h.dots_ with e | ⟨q, e⟩
      · simp [e, Export.idents]
      · simp [e, Export.idents]
    · intro i hi
      simp only [Export.idents, List.map_map, List.mem_map, Function.comp] at hi
      obtain ⟨x, hx, rfl⟩ := hi
      exact (ha x hx).2
    · intro i hi
      simp only [Export.idents, List.map_map, List.mem_map, Function.comp] at hi
      obtain ⟨x, hx, rfl⟩ := hi
      exact (hb x hx).2
    · intro i hi
      simp only [Export.idents, List.mem_map] at hi
      obtain ⟨x, hx, rfl⟩ := hi
      exact h.dotsAt x hx
    · intro i hi
      simp only [Export.idents, List.map_map, List.mem_append, List.mem_map, Function.comp] at hi
      have : ∃ x ∈ a ++ b, i.name = x.1.2 := by
        rcases hi with ⟨x, hx, rfl⟩ | ⟨x, hx, rfl⟩
        · exact ⟨x, by simp [hx], rfl⟩
        · exact ⟨x, by simp [hx], rfl⟩
      obtain ⟨x, hx, e⟩ := this
      obtain ⟨c, s, h1, h2, _⟩ := isargname_spec (h.name x hx).1
      rw [e, h1]
      intro e'
      cases e'
      exact absurd h2 (by decide)
  · have em : (Export.idents fn ((a ++ b).map (·.1) ++ dots)).map (·.name) =
        (a ++ b).map (·.1.2) ++ dots.map (·.2) := by
      simp [Export.idents, Function.comp_def]
    have hd : dots.map (·.2) = [] ∨ dots.map (·.2) = [cs!"..."] := by
      rcases h.dots_ with e | ⟨q, e⟩
      · simp [e]
      · simp [e]
    have hn : ∀ s : Str, (∀ x ∈ a ++ b, x.1.2 ≠ s) → s ≠ cs!"..." →
        s ∉ (a ++ b).map (·.1.2) ++ dots.map (·.2) := by
      intro s h1 h2 hm
      rw [List.mem_append] at hm
      rcases hm with hm | hm
      · obtain ⟨x, hx, e⟩ := List.mem_map.mp hm
        exact h1 x hx e
      · rcases hd with e | e <;> rw [e] at hm
        · simp at hm
        · exact h2 (List.mem_singleton.mp hm)
    rw [em]
    refine ⟨⟨_, _, rfl, hd, h.nodup, ?_⟩, hn _ (fun x hx => (h.name x hx).2.1) (by decide),
      hn _ (fun x hx => (h.name x hx).2.2) (by decide)⟩
    intro n hm
    obtain ⟨x, hx, rfl⟩ := List.mem_map.mp hm
    exact isargname_spec (h.name x hx).1

theorem constTarget_good {e : VExpr} {a : Ast.Expr} (h : constTarget e = true)
    (ha : Export.expr fn e = some a) : (∃ i, a = .ident i) ∨ ∃ q ps, a = .curlyName q ps := by
  cases e <;> simp [constTarget] at h
  case atom q t v =>
    cases t <;> simp at h
    simp only [Export.expr, Option.some.injEq] at ha
    subst ha; exact Or.inl ⟨_, rfl⟩
  case curlyname =>
    simp only [Export.expr, Option.bind_eq_bind, Option.bind_eq_some_iff] at ha
    obtain ⟨_, _, ha⟩ := ha
    split at ha <;> simp at ha
    subst ha; exact Or.inr ⟨_, _, rfl⟩

/-! ### Statements without a body -/

theorem leaf {ctx : List Kind} {s : Ast.Stmt} (h : OkS env fn ctx s) (hs : subStmts s = []) :
    AllS (OkS env fn) ctx s := ⟨_, _, h, by simp [hs]⟩

theorem CmdIs.named {ea : ExArg} {h : Handler} (hc : CmdIs ea h) {l : List Str}
    (hl : ∀ n, (n, h) ∈ nameTable → n ∈ l) (hh : h ≠ .common := by simp) :
    ∃ n, Named (Export.exArg fn ea) n ∧ n ∈ l := by
  obtain ⟨c, h1, h2⟩ := hc.mem hh
  exact ⟨c.name, ⟨c, h1, rfl⟩, hl _ h2⟩

theorem CmdIs.named1 {ea : ExArg} {h : Handler} (hc : CmdIs ea h) {n : Str}
    (hl : ∀ x, (x, h) ∈ nameTable → x = n) (hh : h ≠ .common := by simp) :
    Named (Export.exArg fn ea) n := by
  obtain ⟨c, h1, h2⟩ := hc.mem hh
  exact ⟨c, h1, hl _ h2⟩

/-- The name of a raw command. -/
theorem CmdIs.raw {ea : ExArg} {h : Handler} (hc : CmdIs ea h)
    (hk : keepsLine h = true ∨ h = .append ∨ h = .loadkeymap) :
    ∃ c, ea.cmd = some c ∧ c.name ∉ nodeOnly ∧
      (c.name ∈ [cs!"append", cs!"insert"] → h = .append) ∧ (c.name = cs!"loadkeymap" → h = .loadkeymap) ∧
      (c.name ∈ scriptCmds → h = .lua) := by
  obtain ⟨c, h1, _, h3⟩ := hc.byName
  refine ⟨c, h1, ?_⟩
  rcases h3 with h3 | ⟨h3, h4⟩
  · refine ⟨fun hm => ?_, fun hm => ?_, fun hm => ?_, fun hm => ?_⟩
    · have := List.all_eq_true.mp nodeOnly_byName _ hm
      rw [h3] at this
      rcases hk with hk | rfl | rfl
      · simp [hk] at this
      · simp at this
      · simp at this
    · have := List.all_eq_true.mp append_byName _ hm
      rw [h3] at this
      simpa using this
    · rw [← h3, hm, loadkeymap_byName]
    · have := List.all_eq_true.mp script_byName _ hm
      rw [h3] at this
      simpa using this
  · rw [h3]
    refine ⟨by decide +kernel, fun hm => absurd hm (by decide +kernel), fun hm => absurd hm (by decide +kernel),
      fun hm => absurd hm (by decide +kernel)⟩

theorem start_of {ea : ExArg} {h : Handler} (hea : EaOK env ea) (hc : CmdIs ea h) :
    LineAt env fn (Export.exArg fn ea) := lineAt_of hea hc.known

/-- What a node tells about the blocks around it. -/
structure CtxIn (st : PState) (ctx : List Kind) : Prop where
  function : st.inContext Head.isFunction = true → .function ∈ ctx
  while_ : st.inContext Head.isWhile = true → .while_ ∈ ctx
  for_ : st.inContext Head.isFor = true → .for_ ∈ ctx

/-- A converted statement. -/
def GoodS (env : Env) (fn : Str) (ctx : List Kind) (n : VStmt) (k : Kind → Prop) : Prop :=
  ∃ a, Export.stmt fn n = some a ∧ AllS (OkS env fn) ctx a ∧ k (kind a)

theorem excmd_good {ctx : List Kind} {ea : ExArg} {s : Str} (hea : EaOK env ea)
    (hk : ∀ c, ea.cmd = some c → Known c ∧ c.name ∉ nodeOnly)
    (ht : rawText env fn (Export.exArg fn ea) s) :
    GoodS env fn ctx (.excmd ea.cmdpos ea s) (· = .other) :=
  ⟨_, rfl, leaf ⟨by rintro _ ⟨rfl⟩; exact ⟨rfl, lineAt_of hea fun c h => (hk c h).1⟩, nofun,
    fun c hc => (hk c hc).2, nofun, trivial, trivial, trivial, trivial, ht⟩ rfl, rfl⟩

theorem noHere_one {e : Ast.Expr} (h : GdE env fn e) : ∀ x ∈ [e], isHeredoc x = false := by
  simpa using h.noHere

theorem simple_good {st : PState} {n : VStmt} {ctx : List Kind}
    (hctx : CtxIn st ctx) (h : Simple env (Good env fn) st n) : GoodS env fn ctx n (· = .other) := by
  cases h with
  | comment hs h1 h2 =>
    refine ⟨_, rfl, ?_, ?_⟩
    rotate_left
    · exact rfl
    exact leaf ⟨nofun, nofun, trivial, nofun, trivial, trivial, trivial, trivial,
      ⟨_, _, at_of hs, h1, h2⟩⟩ rfl
  | bare hea hc hm ht =>
    obtain ⟨r, h1, h2, h3, h4⟩ := ht
    refine excmd_good hea (fun c h => ?_) ⟨r, ⟨h1, by rw [← h2]; rfl⟩, ?_⟩
    · rw [hc] at h; cases h
    · simp only [Export.exArg, hc]
      exact ⟨hm, _, h3, h4⟩
  | @excmd ea h s r' hea hc hk hl ht =>
    obtain ⟨r, h1, h2, h3, h4⟩ := ht
    obtain ⟨c, k1, k2, k3, k4, k5⟩ := hc.raw (Or.inl hk)
    refine excmd_good hea (fun c' h => ⟨hc.known c' h, ?_⟩) ⟨r, ⟨h1, by rw [← h2]; rfl⟩, ?_⟩
    · rw [k1] at h; cases h; exact k2
    · simp only [Export.exArg, k1]
      split
      · rename_i hm
        rw [k3 hm] at hk; simp [keepsLine] at hk
      split
      · rename_i hm
        rw [k4 hm] at hk; simp [keepsLine] at hk
      split
      · rename_i hm
        obtain ⟨r1, w, r2, l1, l2, l3, l4, l5⟩ := hl (k5 hm)
        exact Or.inr ⟨⟨_, h3, h4⟩, r1, w, r2, ⟨_, by simp [l1.2], at_of l1.1⟩, l2, l3, l4, l5⟩
      · exact ⟨_, h3, h4⟩
  | append hea hc ht =>
    obtain ⟨r, h1, h2, h3⟩ := ht
    obtain ⟨c, k1, k2, _⟩ := hc.raw (Or.inr (Or.inl rfl))
    refine excmd_good hea (fun c' h => ⟨hc.known c' h, ?_⟩) ⟨r, ⟨h1, by rw [← h2]; rfl⟩, ?_⟩
    · rw [k1] at h; cases h; exact k2
    · obtain ⟨c', k3, k4⟩ := hc.mem
      rw [k1] at k3
      cases k3
      have : c.name ∈ [cs!"append", cs!"insert"] := by simpa [nameTable] using k4
      simp only [Export.exArg, k1, if_pos this]
      exact ⟨_, _, h3⟩
  | loadkeymap hea hc h1 h2 h3 =>
    obtain ⟨c, k1, k2, _⟩ := hc.raw (Or.inr (Or.inr rfl))
    refine excmd_good hea (fun c' h => ⟨hc.known c' h, ?_⟩) ⟨_, ⟨h1, by rw [← h2]; rfl⟩, ?_⟩
    · rw [k1] at h; cases h; exact k2
    · obtain ⟨c', k3, k4⟩ := hc.mem
      rw [k1] at k3
      cases k3
      have e : c.name = cs!"loadkeymap" := by simpa [nameTable] using k4
      simp only [Export.exArg, k1, e]
      rw [if_neg (by decide), if_pos True.intro]
      exact ⟨_, h3, rfl⟩
  | script hea hc hm ht =>
    obtain ⟨r, h1, h2, h3⟩ := ht
    obtain ⟨c, k1, k2, k3, k4, k5⟩ := hc.raw (Or.inl rfl)
    refine excmd_good hea (fun c' h => ⟨hc.known c' h, ?_⟩) ⟨r, ⟨h1, by rw [← h2]; rfl⟩, ?_⟩
    · rw [k1] at h; cases h; exact k2
    · obtain ⟨c', j3, j4⟩ := hc.mem
      rw [k1] at j3
      cases j3
      have e : c.name ∈ scriptCmds := by
        simp only [nameTable, List.mem_cons, Prod.mk.injEq, reduceCtorEq, and_false, and_true, false_or, or_false,
          List.not_mem_nil] at j4
        rcases j4 with h | h | h | h | h | h | h | h <;> rw [h] <;> decide
      simp only [Export.exArg, k1]
      rw [if_neg (fun h => by simpa using k3 h), if_neg (fun h => by simpa using k4 h), if_pos e]
      exact Or.inl ⟨_, _, _, hm, h3⟩
  | delfunction hea hc h1 h2 =>
    obtain ⟨a, a1, a2⟩ := DerE.good h1
    obtain ⟨n, n1, n2⟩ := hc.named (fn := fn) (l := [cs!"delfunction"]) (by simp [nameTable])
    refine ⟨_, by simp [Export.stmt, a1]; rfl, ?_, ?_⟩
    rotate_left
    · exact rfl
    exact leaf ⟨by rintro _ ⟨rfl⟩; exact ⟨rfl, start_of hea hc⟩, nofun,
      ⟨_, n, rfl, n1, n2⟩, by simpa [exprsOf] using fun _ => a2, trivial, trivial, funcTarget_of h2 a1, trivial,
      noHere_one a2⟩ rfl
  | return_ hea hc h1 h2 =>
    obtain ⟨a, a1, a2⟩ := exprOpt_good h2
    obtain ⟨n, n1, n2⟩ := hc.named (fn := fn) (l := [cs!"return"]) (by simp [nameTable])
    refine ⟨_, by simp [Export.stmt, a1]; rfl, ?_, ?_⟩
    rotate_left
    · exact rfl
    exact leaf ⟨by rintro _ ⟨rfl⟩; exact ⟨rfl, start_of hea hc⟩, nofun,
      ⟨_, n, rfl, n1, n2⟩, fun e h _ => a2 e (by simpa [exprsOf] using h), hctx.function h1, trivial, trivial, trivial,
      fun e h => (a2 e (by simpa [exprsOf] using h)).noHere⟩ rfl
  | excall hea hc h1 =>
    obtain ⟨a, a1, a2⟩ := DerE.good h1
    simp only [Export.expr, Option.bind_eq_bind, Option.bind_eq_some_iff] at a1
    obtain ⟨f, f1, as, as1, e⟩ := a1
    cases e
    obtain ⟨n, n1, n2⟩ := hc.named (fn := fn) (l := [cs!"call"]) (by simp [nameTable])
    refine ⟨_, by simp [Export.stmt, f1, as1]; rfl, ?_, ?_⟩
    rotate_left
    · exact rfl
    exact leaf ⟨by rintro _ ⟨rfl⟩; exact ⟨rfl, start_of hea hc⟩, nofun,
      ⟨_, n, rfl, n1, n2⟩, by simpa [exprsOf] using fun _ => a2, trivial, trivial, trivial, trivial,
      noHere_one a2⟩ rfl
  | @let_ ea _ _ _ _ _ _ hea hc hl ho hon hrd hr =>
    obtain ⟨l, ls, rest, hl⟩ := lhs_good hl
    obtain ⟨a, a1, a2⟩ := DerE.good ⟨_, _, hr⟩
    have n1 := hc.named1 (fn := fn) (n := cs!"let") (by simp [nameTable])
    have nc : ¬ Named (Export.exArg fn ea) cs!"const" := by
      rintro ⟨c, c1, c2⟩
      obtain ⟨c', c3, c4⟩ := n1
      rw [c1] at c3; cases c3
      rw [c2] at c4
      exact absurd c4 (by decide)
    refine ⟨_, by simp [Export.stmt, hl.left, hl.list, hl.rest_, a1]; rfl, ?_, ?_⟩
    rotate_left
    · exact rfl
    refine leaf ⟨by rintro _ ⟨rfl⟩; exact ⟨rfl, start_of hea hc⟩, nofun, ⟨_, _, rfl, n1, by simp [cmdNames]⟩, ?_, trivial, trivial,
        ⟨hl.shape, fun h => absurd h nc⟩, trivial, ?_⟩ rfl
    · intro e h _
      simp only [exprsOf] at h
      rw [List.mem_append] at h
      rcases h with h | h
      · exact hl.all e h
      · rw [List.mem_singleton] at h; subst h; exact a2
    · simp only [textOK]
      rw [if_neg (by rw [a2.noHere]; simp)]
      exact ⟨⟨ho, fun h => absurd h nc⟩, _, _, hon.pub, hrd⟩
  | @heredoc ea _ _ hea hc hl hh =>
    obtain ⟨l, ls, rest, hl⟩ := lhs_good hl
    cases hh with
    | mk hon hh =>
    have n1 := hc.named1 (fn := fn) (n := cs!"let") (by simp [nameTable])
    have nc : ¬ Named (Export.exArg fn ea) cs!"const" := by
      rintro ⟨c, c1, c2⟩
      obtain ⟨c', c3, c4⟩ := n1
      rw [c1] at c3; cases c3
      rw [c2] at c4
      exact absurd c4 (by decide)
    refine ⟨_, by simp [Export.stmt, hl.left, hl.list, hl.rest_, Export.expr]; rfl, ?_, ?_⟩
    rotate_left
    · exact rfl
    refine leaf ⟨by rintro _ ⟨rfl⟩; exact ⟨rfl, start_of hea hc⟩, nofun, ⟨_, _, rfl, n1, by simp [cmdNames]⟩, ?_, trivial, trivial,
        ⟨hl.shape, fun h => absurd h nc⟩, trivial, ?_⟩ rfl
    · intro e h h'
      simp only [exprsOf] at h
      rw [List.mem_append] at h
      rcases h with h | h
      · exact hl.all e h
      · rw [List.mem_singleton] at h; subst h; simp [isHeredoc] at h'
    · simp only [textOK]
      rw [if_pos (by rfl)]
      exact ⟨trivial, n1, rfl, _, _, _, _, hon.pub, hh, rfl, rfl⟩
  | const_ hea hc hl ht hon hrd hr =>
    obtain ⟨l, ls, rest, hl⟩ := lhs_good hl
    obtain ⟨a, a1, a2⟩ := DerE.good ⟨_, _, hr⟩
    have n1 := hc.named1 (fn := fn) (n := cs!"const") (by simp [nameTable])
    refine ⟨_, by simp [Export.stmt, hl.left, hl.list, hl.rest_, a1]; rfl, ?_, ?_⟩
    rotate_left
    · exact rfl
    refine leaf ⟨by rintro _ ⟨rfl⟩; exact ⟨rfl, start_of hea hc⟩, nofun, ⟨_, _, rfl, n1, by simp [cmdNames]⟩, ?_, trivial, trivial,
        ⟨hl.shape, fun _ e h => ?_⟩, trivial, ?_⟩ rfl
    · intro e h _
      simp only [exprsOf] at h
      rw [List.mem_append] at h
      rcases h with h | h
      · exact hl.all e h
      · rw [List.mem_singleton] at h; subst h; exact a2
    · obtain ⟨x, x1, x2⟩ := hl.src e h
      exact constTarget_good (ht x x1) x2
    · simp only [textOK]
      rw [if_neg (by rw [a2.noHere]; simp)]
      exact ⟨⟨by simp [letOps], fun _ => trivial⟩, _, _, hon.pub, hrd⟩
  | unlet hea hc hl =>
    obtain ⟨as, a1, a2, a3⟩ := args_good hl
    obtain ⟨n, n1, n2⟩ := hc.named (fn := fn) (l := [cs!"unlet"]) (by simp [nameTable])
    refine ⟨_, by simp [Export.stmt, a1]; rfl, ?_, ?_⟩
    rotate_left
    · exact rfl
    exact leaf ⟨by rintro _ ⟨rfl⟩; exact ⟨rfl, start_of hea hc⟩, nofun,
      ⟨_, n, rfl, n1, n2⟩, fun e h _ => a3 e h, trivial, trivial, a2, trivial,
      fun e h => (a3 e h).noHere⟩ rfl
  | lockvar hea hc hd hl =>
    obtain ⟨as, a1, a2, a3⟩ := args_good hl
    obtain ⟨n, n1, n2⟩ := hc.named (fn := fn) (l := [cs!"lockvar"]) (by simp [nameTable])
    obtain ⟨r, w, ds, r', d1, d2⟩ := hd
    refine ⟨_, by simp [Export.stmt, a1]; rfl, ?_, ?_⟩
    rotate_left
    · exact rfl
    exact leaf ⟨by rintro _ ⟨rfl⟩; exact ⟨rfl, start_of hea hc⟩, nofun,
      ⟨_, n, rfl, n1, n2⟩, fun e h _ => a3 e h, trivial, trivial, a2, trivial,
      ⟨⟨r, w, ds, r', d1.pub, d2⟩, fun e h => (a3 e h).noHere⟩⟩ rfl
  | unlockvar hea hc hd hl =>
    obtain ⟨as, a1, a2, a3⟩ := args_good hl
    obtain ⟨n, n1, n2⟩ := hc.named (fn := fn) (l := [cs!"unlockvar"]) (by simp [nameTable])
    obtain ⟨r, w, ds, r', d1, d2⟩ := hd
    refine ⟨_, by simp [Export.stmt, a1]; rfl, ?_, ?_⟩
    rotate_left
    · exact rfl
    exact leaf ⟨by rintro _ ⟨rfl⟩; exact ⟨rfl, start_of hea hc⟩, nofun,
      ⟨_, n, rfl, n1, n2⟩, fun e h _ => a3 e h, trivial, trivial, a2, trivial,
      ⟨⟨r, w, ds, r', d1.pub, d2⟩, fun e h => (a3 e h).noHere⟩⟩ rfl
  | continue_ hea hc h1 =>
    obtain ⟨n, n1, n2⟩ := hc.named (fn := fn) (l := [cs!"continue"]) (by simp [nameTable])
    refine ⟨_, rfl, ?_, ?_⟩
    rotate_left
    · exact rfl
    exact leaf ⟨by rintro _ ⟨rfl⟩; exact ⟨rfl, start_of hea hc⟩, nofun,
      ⟨_, n, rfl, n1, n2⟩, nofun, h1.imp hctx.while_ hctx.for_, trivial, trivial, trivial, nofun⟩ rfl
  | break_ hea hc h1 =>
    obtain ⟨n, n1, n2⟩ := hc.named (fn := fn) (l := [cs!"break"]) (by simp [nameTable])
    refine ⟨_, rfl, ?_, ?_⟩
    rotate_left
    · exact rfl
    exact leaf ⟨by rintro _ ⟨rfl⟩; exact ⟨rfl, start_of hea hc⟩, nofun,
      ⟨_, n, rfl, n1, n2⟩, nofun, h1.imp hctx.while_ hctx.for_, trivial, trivial, trivial, nofun⟩ rfl
  | throw hea hc h1 =>
    obtain ⟨a, a1, a2⟩ := DerE.good h1
    obtain ⟨n, n1, n2⟩ := hc.named (fn := fn) (l := [cs!"throw"]) (by simp [nameTable])
    refine ⟨_, by simp [Export.stmt, a1]; rfl, ?_, ?_⟩
    rotate_left
    · exact rfl
    exact leaf ⟨by rintro _ ⟨rfl⟩; exact ⟨rfl, start_of hea hc⟩, nofun,
      ⟨_, n, rfl, n1, n2⟩, by simpa [exprsOf] using fun _ => a2, trivial, trivial, trivial, trivial,
      noHere_one a2⟩ rfl
  | eval hea hc h1 =>
    obtain ⟨a, a1, a2⟩ := DerE.good h1
    obtain ⟨n, n1, n2⟩ := hc.named (fn := fn) (l := [cs!"eval"]) (by simp [nameTable])
    refine ⟨_, by simp [Export.stmt, a1]; rfl, ?_, ?_⟩
    rotate_left
    · exact rfl
    exact leaf ⟨by rintro _ ⟨rfl⟩; exact ⟨rfl, start_of hea hc⟩, nofun,
      ⟨_, n, rfl, n1, n2⟩, by simpa [exprsOf] using fun _ => a2, trivial, trivial, trivial, trivial,
      noHere_one a2⟩ rfl
  | @echo ea ty l hea hc h1 =>
    obtain ⟨as, a1, _, a3⟩ := exprs_good h1
    obtain ⟨c, c1, c2⟩ := hc.mem (by cases ty <;> simp [echoH])
    refine ⟨_, by simp [Export.stmt, a1, c1]; rfl, ?_, ?_⟩
    rotate_left
    · exact rfl
    refine leaf ⟨by rintro _ ⟨rfl⟩; exact ⟨rfl, start_of hea hc⟩, nofun,
      ⟨⟨c, c1, rfl⟩, ?_⟩, fun e h _ => a3 e h, trivial, trivial, trivial, trivial,
      fun e h => (a3 e h).noHere⟩ rfl
    cases ty <;> simp [echoH, nameTable] at c2 <;> simp [c2]
  | echohl hea hc h1 h2 h3 =>
    obtain ⟨n, n1, n2⟩ := hc.named (fn := fn) (l := [cs!"echohl"]) (by simp [nameTable])
    refine ⟨_, rfl, ?_, ?_⟩
    rotate_left
    · exact rfl
    exact leaf ⟨by rintro _ ⟨rfl⟩; exact ⟨rfl, start_of hea hc⟩, nofun,
      ⟨_, n, rfl, n1, n2⟩, nofun, trivial, trivial, trivial, trivial, ⟨_, _, h1.pub, h2, h3⟩⟩ rfl
  | execute hea hc h1 =>
    obtain ⟨as, a1, _, a3⟩ := exprs_good h1
    obtain ⟨n, n1, n2⟩ := hc.named (fn := fn) (l := [cs!"execute"]) (by simp [nameTable])
    refine ⟨_, by simp [Export.stmt, a1]; rfl, ?_, ?_⟩
    rotate_left
    · exact rfl
    exact leaf ⟨by rintro _ ⟨rfl⟩; exact ⟨rfl, start_of hea hc⟩, nofun,
      ⟨_, n, rfl, n1, n2⟩, fun e h _ => a3 e h, trivial, trivial, trivial, trivial,
      fun e h => (a3 e h).noHere⟩ rfl

/-! ### Blocks -/

def headKind : Head → Option Kind
  | .toplevel => none
  | .function .. => some .function
  | .if_ .. => some .if_
  | .elseif .. => some .elseIf
  | .else_ .. => some .else_
  | .while_ .. => some .while_
  | .for_ .. => some .for_
  | .try_ .. => some .try_
  | .catch_ .. => some .catch_
  | .finally_ .. => some .finally_

/-- Kinds of the open blocks, innermost first. -/
def ctxOf (fs : List Frame) : List Kind := fs.filterMap (fun f => headKind f.head)

theorem inContext_kind {st : PState} {p : Head → Bool} {k : Kind}
    (hp : ∀ h, p h = true → headKind h = some k) (h : st.inContext p = true) :
    k ∈ ctxOf (st.cur :: st.stack) := by
  unfold PState.inContext at h
  obtain ⟨f, hf, hpf⟩ := List.any_eq_true.mp h
  exact List.mem_filterMap.mpr ⟨f, hf, hp _ hpf⟩

theorem ctxIn_of (st : PState) : CtxIn st (ctxOf (st.cur :: st.stack)) where
  function := inContext_kind (by intro h; cases h <;> simp [Head.isFunction, headKind])
  while_ := inContext_kind (by intro h; cases h <;> simp [Head.isWhile, headKind])
  for_ := inContext_kind (by intro h; cases h <;> simp [Head.isFor, headKind])

/-- Kind of the converted node. -/
def vkind : VStmt → Kind
  | .function .. => .function
  | .if_ .. => .if_
  | .elseif .. => .elseIf
  | .else_ .. => .else_
  | .while_ .. => .while_
  | .for_ .. => .for_
  | .try_ .. => .try_
  | .catch_ .. => .catch_
  | .finally_ .. => .finally_
  | _ => .other

theorem stmt_kind {n : VStmt} {a : Ast.Stmt} (h : Export.stmt fn n = some a) : kind a = vkind n := by
  cases n
  case if_ =>
    simp only [Export.stmt, Option.bind_eq_bind, Option.bind_eq_some_iff] at h
    obtain ⟨_, _, _, _, _, _, _, _, _, _, h⟩ := h
    split at h <;> simp at h
    subst h; rfl
  case try_ =>
    simp only [Export.stmt, Option.bind_eq_bind, Option.bind_eq_some_iff] at h
    obtain ⟨_, _, _, _, _, _, _, _, h⟩ := h
    split at h <;> simp at h
    subst h; rfl
  case excall q ea l =>
    cases l <;> simp [Export.stmt, Option.bind_eq_some_iff] at h
    obtain ⟨_, _, _, _, rfl⟩ := h; rfl
  case comment => cases h; rfl
  case excmd => cases h; rfl
  case continue_ => cases h; rfl
  case break_ => cases h; rfl
  case echohl => cases h; rfl
  case function =>
    simp only [Export.stmt, Option.bind_eq_bind, Option.bind_eq_some_iff] at h
    obtain ⟨_, _, _, _, _, _, _, _, h⟩ := h; cases h; rfl
  case for_ =>
    simp only [Export.stmt, Option.bind_eq_bind, Option.bind_eq_some_iff] at h
    obtain ⟨_, _, _, _, _, _, _, _, _, _, _, _, h⟩ := h; cases h; rfl
  case let_ =>
    simp only [Export.stmt, Option.bind_eq_bind, Option.bind_eq_some_iff] at h
    obtain ⟨_, _, _, _, _, _, _, _, h⟩ := h; cases h; rfl
  case const_ =>
    simp only [Export.stmt, Option.bind_eq_bind, Option.bind_eq_some_iff] at h
    obtain ⟨_, _, _, _, _, _, _, _, h⟩ := h; cases h; rfl
  case while_ =>
    simp only [Export.stmt, Option.bind_eq_bind, Option.bind_eq_some_iff] at h
    obtain ⟨_, _, _, _, _, _, h⟩ := h; cases h; rfl
  case elseif =>
    simp only [Export.stmt, Option.bind_eq_bind, Option.bind_eq_some_iff] at h
    obtain ⟨_, _, _, _, h⟩ := h; cases h; rfl
  case echo =>
    simp only [Export.stmt, Option.bind_eq_bind, Option.bind_eq_some_iff] at h
    obtain ⟨_, _, _, _, h⟩ := h; cases h; rfl
  all_goals
    simp only [Export.stmt, Option.bind_eq_bind, Option.bind_eq_some_iff] at h
    obtain ⟨_, _, h⟩ := h; cases h; rfl

theorem stmts_good {ctx : List Kind} {k : Kind → Prop} {l : List VStmt}
    (h : ∀ n ∈ l, GoodS env fn ctx n k) :
    ∃ as, Export.stmts fn l = some as ∧ ∀ a ∈ as, AllS (OkS env fn) ctx a ∧ k (kind a) := by
  induction l with
  | nil => exact ⟨[], rfl, by simp⟩
  | cons n l ih =>
    rw [List.forall_mem_cons] at h
    obtain ⟨a, h1, h2⟩ := h.1
    obtain ⟨as, k1, k2⟩ := ih h.2
    exact ⟨a :: as, by simp [Export.stmts, h1, k1], by rw [List.forall_mem_cons]; exact ⟨h2, k2⟩⟩

theorem stmtOpt_good {ctx : List Kind} {k : Kind → Prop} {o : Option VStmt}
    (h : ∀ n, o = some n → GoodS env fn ctx n k) :
    ∃ a, Export.stmtOpt fn o = some a ∧ ∀ x, a = some x → AllS (OkS env fn) ctx x ∧ k (kind x) := by
  cases o with
  | none => exact ⟨none, rfl, by simp⟩
  | some n =>
    obtain ⟨a, h1, h2⟩ := h n rfl
    exact ⟨some a, by simp [Export.stmtOpt, h1], by rintro x ⟨rfl⟩; exact h2⟩

/-- Invariant of an open block. -/
structure FrameOK (env : Env) (fn : Str) (f : Frame) (below : List Frame) : Prop where
  head : f.head = .toplevel ∨ (∃ b, Opens env (Good env fn) f.head b) ∨
    ∃ b p s, Mids env (Good env fn) f.head b p s
  body : ∀ n ∈ f.body, GoodS env fn (ctxOf (f :: below)) n (isPart · = false)
  elseifs : ∀ n ∈ f.elseifs, GoodS env fn (ctxOf (f :: below)) n (· = .elseIf)
  els : ∀ n, f.els = some n → GoodS env fn (ctxOf (f :: below)) n (· = .else_)
  catches : ∀ n ∈ f.catches, GoodS env fn (ctxOf (f :: below)) n (· = .catch_)
  fin : ∀ n, f.fin = some n → GoodS env fn (ctxOf (f :: below)) n (· = .finally_)

def StackGood (env : Env) (fn : Str) : List Frame → Prop
  | [] => True
  | f :: fs => FrameOK env fn f fs ∧ StackGood env fn fs

theorem isElseIf_of {a : Ast.Stmt} (h : kind a = .elseIf) : Export.isElseIf a = true := by
  cases a <;> simp [kind] at h <;> rfl

theorem isElse_of {a : Ast.Stmt} (h : kind a = .else_) : Export.isElse a = true := by
  cases a <;> simp [kind] at h <;> rfl

theorem isCatch_of {a : Ast.Stmt} (h : kind a = .catch_) : Export.isCatch a = true := by
  cases a <;> simp [kind] at h <;> rfl

theorem isFinally_of {a : Ast.Stmt} (h : kind a = .finally_) : Export.isFinally a = true := by
  cases a <;> simp [kind] at h <;> rfl

theorem optIs_of {p : Ast.Stmt → Bool} {o : Option Ast.Stmt} (h : ∀ x, o = some x → p x = true) :
    Export.optIs p o = true := by
  cases o with
  | none => rfl
  | some x => exact h x rfl

theorem attrs_good {ea : ExArg} {at_ : FuncAttr} {rp r r' : List Cell} {v : Str} (hon : ArgOn env ea rp)
    (h1 : Reads rp ['('] r) (h2 : Reads r (v ++ [')']) r') (ha : AttrOK r' at_) :
    AttrsAt env fn (Export.exArg fn ea) at_ := by
  obtain ⟨ks, r2, w, r3, k1, k2, k3, k4, k5, rfl⟩ := ha
  refine ⟨rp, v, r', ks, r2, w, r3, hon.pub, ?_, k1, k2, k3, k4, k5, ?_⟩
  · exact h1.append h2
  · simp only [List.contains_iff_mem, and_self]

theorem funcName_good {e : VExpr} {a : Ast.Expr} (h : checkFuncName e = some none)
    (ha : Export.expr fn e = some a) : ∀ i, a = .ident i → ∃ c t, i.name = c :: t ∧
      (c = '<' ∨ c = '_' ∨ isupper c = true ∨ ':' ∈ c :: t ∨ '#' ∈ c :: t) := by
  rintro i rfl
  obtain ⟨q, rfl⟩ := expr_ident ha
  cases hn : i.name with
  | nil => rw [hn] at h; simp [checkFuncName] at h
  | cons c t =>
    refine ⟨c, t, rfl, ?_⟩
    rw [hn] at h
    simp only [checkFuncName] at h
    split at h
    · simp at h
    · rename_i hc
      simp only [Bool.and_eq_true, Bool.not_eq_true', bne_iff_ne, ne_eq, not_and,
        ← Bool.not_eq_true, List.contains_iff_mem, Classical.not_not] at hc
      by_cases h1 : c = '<'
      · exact Or.inl h1
      by_cases h2 : c = '_'
      · exact Or.inr (Or.inl h2)
      by_cases h3 : isupper c = true
      · exact Or.inr (Or.inr (Or.inl h3))
      by_cases h4 : ':' ∈ c :: t
      · exact Or.inr (Or.inr (Or.inr (Or.inl h4)))
      · exact Or.inr (Or.inr (Or.inr (Or.inr (hc ⟨⟨⟨h1, h2⟩, h3⟩, h4⟩))))

theorem close_end (he : EnvOK env) {f : Frame} {below : List Frame} (hf : FrameOK env fn f below) {b b' : Blk}
    (ho : Opens env (Good env fn) f.head b) {e : EndNode} {par sib : Head → Bool}
    (hend : Ends env e b' par sib) (hp : par f.head = true) :
    GoodS env fn (ctxOf below) (f.close (some e)) (isPart · = false) := by
  obtain ⟨h, body, eis, el, cs, fi⟩ := f
  obtain ⟨-, f1, f2, f3, f4, f5⟩ := hf
  simp only at ho hp f1 f2 f3 f4 f5
  obtain ⟨bd, b1, b2⟩ := stmts_good f1
  cases ho with
  | @function ea l ps dots at_ rp r r' hea hc hl hlf hcf hon hpo hps hat =>
    cases hend with
    | endif => simp [Head.isIf] at hp
    | endwhile => simp [Head.isWhile] at hp
    | endfor => simp [Head.isFor] at hp
    | endtry => simp [Head.isTry] at hp
    | @endfunction ea' hea' hc' =>
      obtain ⟨a, a1, a2⟩ := DerE.good hl
      have hfp := fparams_good he (hpo.adv.suf hon.suf) hps
      obtain ⟨da, d1, d2, d3, d4⟩ := hfp.defaults
      obtain ⟨v, hv⟩ := hfp.reads
      obtain ⟨n, n1, n2⟩ := hc.named (fn := fn) (l := [cs!"function"]) (by simp [nameTable])
      have n3 := hc'.named1 (fn := fn) (n := cs!"endfunction") (by simp [nameTable])
      refine ⟨_, by simp [Frame.close, Export.stmt, b1, a1, d1, Export.endCmd]; rfl, ?_, ?_⟩
      rotate_left
      · exact rfl
      refine ⟨_, _, ⟨by rintro _ ⟨rfl⟩; exact ⟨rfl, start_of hea hc⟩, by rintro _ ⟨rfl⟩; exact ⟨rfl, start_of hea' hc'⟩,
          ⟨_, n, rfl, n1, n2⟩, ?_, trivial, ⟨fun x hx => (b2 x hx).2, n3⟩,
          ⟨funcTarget_of hlf a1, funcName_good hcf a1⟩, ⟨d4, d3, attrs_good hon hpo hv hat⟩, ?_⟩,
          fun x hx => (b2 x hx).1⟩
      · intro e h _
        rcases List.mem_cons.mp h with rfl | h
        · exact a2
        · exact d2 e h
      · intro e h
        rcases List.mem_cons.mp h with rfl | h
        · exact a2.noHere
        · exact (d2 e h).noHere
  | if_ hea hc hl =>
    cases hend with
    | endfunction => simp [Head.isFunction] at hp
    | endwhile => simp [Head.isWhile] at hp
    | endfor => simp [Head.isFor] at hp
    | endtry => simp [Head.isTry] at hp
    | endif hea' hc' =>
      obtain ⟨a, a1, a2⟩ := DerE.good hl
      obtain ⟨es, e1, e2⟩ := stmts_good f2
      obtain ⟨ol, o1, o2⟩ := stmtOpt_good f3
      obtain ⟨n, n1, n2⟩ := hc.named (fn := fn) (l := [cs!"if"]) (by simp [nameTable])
      have n3 := hc'.named1 (fn := fn) (n := cs!"endif") (by simp [nameTable])
      have hall : (es.all Export.isElseIf && Export.optIs Export.isElse ol) = true := by
        rw [Bool.and_eq_true, List.all_eq_true]
        exact ⟨fun x hx => isElseIf_of (e2 x hx).2, optIs_of fun x hx => isElse_of (o2 x hx).2⟩
      refine ⟨_, by simp only [Frame.close, Export.stmt, b1, a1, e1, o1, Export.endCmd, Option.bind_eq_bind, Option.bind_some,
          hall, if_true]; rfl, ?_, ?_⟩
      rotate_left
      · exact rfl
      refine ⟨_, _, ⟨by rintro _ ⟨rfl⟩; exact ⟨rfl, start_of hea hc⟩, by rintro _ ⟨rfl⟩; exact ⟨rfl, start_of hea' hc'⟩,
          ⟨_, n, rfl, n1, n2⟩, by simpa [exprsOf] using fun _ => a2, trivial,
          ⟨fun x hx => (b2 x hx).2, fun x hx => (e2 x hx).2, fun x hx => (o2 x hx).2, n3⟩, trivial, trivial,
          noHere_one a2⟩, ?_⟩
      intro x hx
      simp only [subStmts, List.mem_append, Option.mem_toList] at hx
      rcases hx with (hx | hx) | hx
      · exact (b2 x hx).1
      · exact (e2 x hx).1
      · exact (o2 x hx).1
  | while_ hea hc hl =>
    cases hend with
    | endfunction => simp [Head.isFunction] at hp
    | endif => simp [Head.isIf] at hp
    | endfor => simp [Head.isFor] at hp
    | endtry => simp [Head.isTry] at hp
    | endwhile hea' hc' =>
      obtain ⟨a, a1, a2⟩ := DerE.good hl
      obtain ⟨n, n1, n2⟩ := hc.named (fn := fn) (l := [cs!"while"]) (by simp [nameTable])
      have n3 := hc'.named1 (fn := fn) (n := cs!"endwhile") (by simp [nameTable])
      refine ⟨_, by simp [Frame.close, Export.stmt, b1, a1, Export.endCmd]; rfl, ?_, ?_⟩
      rotate_left
      · exact rfl
      exact ⟨_, _, ⟨by rintro _ ⟨rfl⟩; exact ⟨rfl, start_of hea hc⟩, by rintro _ ⟨rfl⟩; exact ⟨rfl, start_of hea' hc'⟩,
          ⟨_, n, rfl, n1, n2⟩, by simpa [exprsOf] using fun _ => a2, trivial,
          ⟨fun x hx => (b2 x hx).2, n3⟩, trivial, trivial, noHere_one a2⟩, fun x hx => (b2 x hx).1⟩
  | for_ hea hc hlhs hl =>
    cases hend with
    | endfunction => simp [Head.isFunction] at hp
    | endif => simp [Head.isIf] at hp
    | endwhile => simp [Head.isWhile] at hp
    | endtry => simp [Head.isTry] at hp
    | endfor hea' hc' =>
      obtain ⟨a, a1, a2⟩ := DerE.good hl
      obtain ⟨l, ls, rest, hl⟩ := lhs_good hlhs
      obtain ⟨n, n1, n2⟩ := hc.named (fn := fn) (l := [cs!"for"]) (by simp [nameTable])
      have n3 := hc'.named1 (fn := fn) (n := cs!"endfor") (by simp [nameTable])
      have hex : ∀ e ∈ l.toList ++ ls ++ rest.toList ++ [a], GdE env fn e := by
        intro e h
        rw [List.mem_append] at h
        rcases h with h | h
        · exact hl.all e h
        · rw [List.mem_singleton] at h; subst h; exact a2
      refine ⟨_, by simp [Frame.close, Export.stmt, b1, a1, hl.left, hl.list, hl.rest_, Export.endCmd]; rfl, ?_, ?_⟩
      rotate_left
      · exact rfl
      exact ⟨_, _, ⟨by rintro _ ⟨rfl⟩; exact ⟨rfl, start_of hea hc⟩, by rintro _ ⟨rfl⟩; exact ⟨rfl, start_of hea' hc'⟩,
          ⟨_, n, rfl, n1, n2⟩, fun e h _ => hex e h, trivial,
          ⟨fun x hx => (b2 x hx).2, n3⟩, hl.shape, trivial, fun e h => (hex e h).noHere⟩,
          fun x hx => (b2 x hx).1⟩
  | try_ hea hc =>
    cases hend with
    | endfunction => simp [Head.isFunction] at hp
    | endif => simp [Head.isIf] at hp
    | endwhile => simp [Head.isWhile] at hp
    | endfor => simp [Head.isFor] at hp
    | endtry hea' hc' =>
      obtain ⟨es, e1, e2⟩ := stmts_good f4
      obtain ⟨ol, o1, o2⟩ := stmtOpt_good f5
      obtain ⟨n, n1, n2⟩ := hc.named (fn := fn) (l := [cs!"try"]) (by simp [nameTable])
      have n3 := hc'.named1 (fn := fn) (n := cs!"endtry") (by simp [nameTable])
      have hall : (es.all Export.isCatch && Export.optIs Export.isFinally ol) = true := by
        rw [Bool.and_eq_true, List.all_eq_true]
        exact ⟨fun x hx => isCatch_of (e2 x hx).2, optIs_of fun x hx => isFinally_of (o2 x hx).2⟩
      refine ⟨_, by simp only [Frame.close, Export.stmt, b1, e1, o1, Export.endCmd, Option.bind_eq_bind, Option.bind_some,
          hall, if_true]; rfl, ?_, ?_⟩
      rotate_left
      · exact rfl
      refine ⟨_, _, ⟨by rintro _ ⟨rfl⟩; exact ⟨rfl, start_of hea hc⟩, by rintro _ ⟨rfl⟩; exact ⟨rfl, start_of hea' hc'⟩,
          ⟨_, n, rfl, n1, n2⟩, nofun, trivial,
          ⟨fun x hx => (b2 x hx).2, fun x hx => (e2 x hx).2, fun x hx => (o2 x hx).2, n3⟩, trivial, trivial,
          nofun⟩, ?_⟩
      intro x hx
      simp only [subStmts, List.mem_append, Option.mem_toList] at hx
      rcases hx with (hx | hx) | hx
      · exact (b2 x hx).1
      · exact (e2 x hx).1
      · exact (o2 x hx).1

theorem close_mid {f : Frame} {below : List Frame} (hf : FrameOK env fn f below) {b : Blk}
    {par sib : Head → Bool} (hm : Mids env (Good env fn) f.head b par sib) :
    GoodS env fn (ctxOf below) (f.close none) (fun _ => True) := by
  obtain ⟨h, body, eis, el, cs, fi⟩ := f
  obtain ⟨-, f1, -, -, -, -⟩ := hf
  simp only at hm f1
  obtain ⟨bd, b1, b2⟩ := stmts_good f1
  cases hm with
  | elseif hea hc hl =>
    obtain ⟨a, a1, a2⟩ := DerE.good hl
    obtain ⟨n, n1, n2⟩ := hc.named (fn := fn) (l := [cs!"elseif"]) (by simp [nameTable])
    refine ⟨_, by simp [Frame.close, Export.stmt, b1, a1]; rfl, ?_, ?_⟩
    rotate_left
    · exact trivial
    exact ⟨_, _, ⟨by rintro _ ⟨rfl⟩; exact ⟨rfl, start_of hea hc⟩, nofun,
        ⟨_, n, rfl, n1, n2⟩, by simpa [exprsOf] using fun _ => a2, trivial,
        fun x hx => (b2 x hx).2, trivial, trivial, noHere_one a2⟩, fun x hx => (b2 x hx).1⟩
  | else_ hea hc =>
    obtain ⟨n, n1, n2⟩ := hc.named (fn := fn) (l := [cs!"else"]) (by simp [nameTable])
    refine ⟨_, by simp [Frame.close, Export.stmt, b1]; rfl, ?_, ?_⟩
    rotate_left
    · exact trivial
    exact ⟨_, _, ⟨by rintro _ ⟨rfl⟩; exact ⟨rfl, start_of hea hc⟩, nofun,
        ⟨_, n, rfl, n1, n2⟩, nofun, trivial,
        fun x hx => (b2 x hx).2, trivial, trivial, nofun⟩, fun x hx => (b2 x hx).1⟩
  | catch_ hea hc hp =>
    obtain ⟨n, n1, n2⟩ := hc.named (fn := fn) (l := [cs!"catch"]) (by simp [nameTable])
    obtain ⟨ra, w, r, p1, p2, p3, p4⟩ := hp
    refine ⟨_, by simp [Frame.close, Export.stmt, b1]; rfl, ?_, ?_⟩
    rotate_left
    · exact trivial
    exact ⟨_, _, ⟨by rintro _ ⟨rfl⟩; exact ⟨rfl, start_of hea hc⟩, nofun,
        ⟨_, n, rfl, n1, n2⟩, nofun, trivial,
        fun x hx => (b2 x hx).2, trivial, trivial, ⟨ra, w, r, p1.pub, p2, p3, p4⟩⟩,
        fun x hx => (b2 x hx).1⟩
  | finally_ hea hc =>
    obtain ⟨n, n1, n2⟩ := hc.named (fn := fn) (l := [cs!"finally"]) (by simp [nameTable])
    refine ⟨_, by simp [Frame.close, Export.stmt, b1]; rfl, ?_, ?_⟩
    rotate_left
    · exact trivial
    exact ⟨_, _, ⟨by rintro _ ⟨rfl⟩; exact ⟨rfl, start_of hea hc⟩, nofun,
        ⟨_, n, rfl, n1, n2⟩, nofun, trivial,
        fun x hx => (b2 x hx).2, trivial, trivial, nofun⟩, fun x hx => (b2 x hx).1⟩

theorem attach_ctx (p : Frame) (n : VStmt) (below : List Frame) :
    ctxOf (p.attach n :: below) = ctxOf (p :: below) := by
  unfold ctxOf
  simp only [List.filterMap_cons, attach_head]

theorem FrameOK.attach {p : Frame} {below : List Frame} (hf : FrameOK env fn p below) {n : VStmt}
    {k : Kind → Prop} (hn : GoodS env fn (ctxOf (p :: below)) n k) : FrameOK env fn (p.attach n) below := by
  obtain ⟨a, h1, h2, _⟩ := hn
  have hk := stmt_kind h1
  have snoc : ∀ {l : List VStmt} {k : Kind → Prop}, (∀ n ∈ l, GoodS env fn (ctxOf (p :: below)) n k) →
      k (vkind n) → ∀ m ∈ l ++ [n], GoodS env fn (ctxOf (p :: below)) m k := by
    intro l k hl hk' m hm
    rw [List.mem_append, List.mem_singleton] at hm
    rcases hm with hm | rfl
    · exact hl m hm
    · exact ⟨a, h1, h2, by rw [hk]; exact hk'⟩
  obtain ⟨f0, f1, f2, f3, f4, f5⟩ := hf
  refine ⟨?_, ?_, ?_, ?_, ?_, ?_⟩
  · rw [attach_head]; exact f0
  all_goals rw [attach_ctx]; unfold Frame.attach
  · split <;> try exact f1
    rename_i n1 n2 n3 n4
    refine snoc f1 ?_
    cases n
    case elseif => exact absurd rfl (n1 _ _ _ _)
    case else_ => exact absurd rfl (n2 _ _ _)
    case catch_ => exact absurd rfl (n3 _ _ _ _)
    case finally_ => exact absurd rfl (n4 _ _ _)
    all_goals rfl
  · split <;> try exact f2
    exact snoc f2 rfl
  · split <;> try exact f3
    rintro m ⟨rfl⟩
    exact ⟨a, h1, h2, hk⟩
  · split <;> try exact f4
    exact snoc f4 rfl
  · split <;> try exact f5
    rintro m ⟨rfl⟩
    exact ⟨a, h1, h2, hk⟩

theorem StackGood.pop {st st' : PState} (h : StackGood env fn (st.cur :: st.stack)) {e : Option EndNode}
    {k : Kind → Prop} (hc : GoodS env fn (ctxOf st.stack) (st.cur.close e) k)
    (hp : st.pop e = some st') : StackGood env fn (st'.cur :: st'.stack) := by
  unfold PState.pop at hp
  split at hp
  · simp at hp
  · rename_i f fs hf
    simp only [Option.some.injEq] at hp
    subst hp
    rw [hf] at h hc
    exact ⟨h.2.1.attach hc, h.2.2⟩

/-- A block that is closed with an end command was opened by a command. -/
theorem FrameOK.opens {f : Frame} {below : List Frame} (h : FrameOK env fn f below) {e : EndNode} {b : Blk}
    {par sib : Head → Bool} (hend : Ends env e b par sib) (hp : par f.head = true) :
    ∃ b, Opens env (Good env fn) f.head b := by
  rcases h.head with h1 | h1 | ⟨b', p', s', h1⟩
  · rw [h1] at hp; cases hend <;> simp [Head.isFunction, Head.isIf, Head.isWhile, Head.isFor, Head.isTry] at hp
  · exact h1
  · exfalso
    revert hp
    cases hend <;> generalize f.head = hd at h1 <;> cases h1 <;>
      simp [Head.isFunction, Head.isIf, Head.isWhile, Head.isFor, Head.isTry]

/-- Parts of a block. -/
theorem FrameOK.mids {f : Frame} {below : List Frame} (h : FrameOK env fn f below)
    (hp : f.head.isElseif = true ∨ f.head.isElse = true ∨ f.head.isCatch = true ∨ f.head.isFinally = true) :
    ∃ b p s, Mids env (Good env fn) f.head b p s := by
  rcases h.head with h1 | ⟨b, h1⟩ | h1
  · rw [h1] at hp; simp [Head.isElseif, Head.isElse, Head.isCatch, Head.isFinally] at hp
  · exfalso
    revert hp
    generalize f.head = hd at h1
    cases h1 <;> simp [Head.isElseif, Head.isElse, Head.isCatch, Head.isFinally]
  · exact h1

theorem Ends.sib_part {e : EndNode} {b : Blk} {par sib : Head → Bool} (h : Ends env e b par sib) {hd : Head}
    (hs : sib hd = true) :
    hd.isElseif = true ∨ hd.isElse = true ∨ hd.isCatch = true ∨ hd.isFinally = true := by
  cases h <;> simp only [Bool.or_eq_true, Bool.false_eq_true] at hs
  · exact hs.elim Or.inl (fun h => Or.inr (Or.inl h))
  · exact hs.elim (fun h => Or.inr (Or.inr (Or.inl h))) (fun h => Or.inr (Or.inr (Or.inr h)))

theorem Mids.sib_part {P : Nat → ERel} {h : Head} {b : Blk} {par sib : Head → Bool} (h : Mids env P h b par sib)
    {hd : Head} (hs : sib hd = true) :
    hd.isElseif = true ∨ hd.isElse = true ∨ hd.isCatch = true ∨ hd.isFinally = true := by
  cases h
  · exact Or.inl hs
  · exact Or.inl hs
  · exact Or.inr (Or.inr (Or.inl hs))
  · exact Or.inr (Or.inr (Or.inl hs))

/-- The block below a part that an end command closes. -/
theorem Ends.below {e : EndNode} {b : Blk} {par sib : Head → Bool} (h : Ends env e b par sib) {st : PState}
    (ho : st.OK) (hs : sib st.cur.head = true) : ∃ f fs, st.stack = f :: fs ∧ par f.head = true := by
  cases h <;> simp only [Bool.or_eq_true, Bool.false_eq_true] at hs
  · exact ho.if_below hs
  · exact ho.try_below hs

theorem StackGood.step (he : EnvOK env) {st st' : PState} {b : Option Blk} (ho : st.OK)
    (h : StackGood env fn (st.cur :: st.stack)) (hs : Step env (Good env fn) st b st') :
    StackGood env fn (st'.cur :: st'.stack) := by
  have push : ∀ {st1 : PState} {hd : Head}, StackGood env fn (st1.cur :: st1.stack) →
      ((∃ b, Opens env (Good env fn) hd b) ∨ ∃ b p s, Mids env (Good env fn) hd b p s) →
      StackGood env fn ((st1.push hd).cur :: (st1.push hd).stack) := by
    intro st1 hd h1 h2
    exact ⟨⟨Or.inr h2, by simp [PState.push], by simp [PState.push], by simp [PState.push], by simp [PState.push],
      by simp [PState.push]⟩, h1⟩
  cases hs with
  | cache c _ => exact h
  | add hn =>
    obtain ⟨a, h1, h2, h3⟩ := simple_good (ctxIn_of st) hn
    refine ⟨⟨h.1.head, ?_, h.1.elseifs, h.1.els, h.1.catches, h.1.fin⟩, h.2⟩
    intro m hm
    simp only [PState.add, List.mem_append, List.mem_singleton] at hm
    rcases hm with hm | rfl
    · exact h.1.body m hm
    · exact ⟨a, h1, h2, by rw [h3]; rfl⟩
  | opens ho => exact push h (Or.inl ⟨_, ho⟩)
  | mid1 hm _ => exact push h (Or.inr ⟨_, _, _, hm⟩)
  | mid2 hm hsib hp =>
    obtain ⟨_, _, _, hm'⟩ := h.1.mids (hm.sib_part hsib)
    exact push (h.pop (close_mid h.1 hm') hp) (Or.inr ⟨_, _, _, hm⟩)
  | end1 hend hpar hp =>
    obtain ⟨_, ho'⟩ := h.1.opens hend hpar
    exact h.pop (close_end he h.1 ho' hend hpar) hp
  | end2 hend hsib hp hp' =>
    obtain ⟨_, _, _, hm'⟩ := h.1.mids (hend.sib_part hsib)
    have h1 := h.pop (close_mid h.1 hm') hp
    obtain ⟨f, fs, e1, hpar⟩ := hend.below ho hsib
    obtain ⟨f', fs', e2, e3, _⟩ := pop_head hp
    rw [e1] at e2
    cases e2
    rw [← e3] at hpar
    obtain ⟨_, ho'⟩ := h1.1.opens hend hpar
    exact h1.pop (close_end he h1.1 ho' hend hpar) hp'

theorem StackGood.steps (he : EnvOK env) {st st' : PState} {bs : List Blk} (ho : st.OK)
    (h : StackGood env fn (st.cur :: st.stack)) (hs : Steps env (Good env fn) st bs st') :
    StackGood env fn (st'.cur :: st'.stack) := by
  induction hs with
  | nil => exact h
  | cons h1 _ ih => exact ih (h1.ok ho) (h.step he ho h1)

end

end Viml
