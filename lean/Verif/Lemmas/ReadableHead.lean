/-
The first line of a statement determines it up to its body, and the lines of a file determine the file.  Used by C74.
-/
import Verif.Lemmas.ReadableStmt

namespace Viml.Readable
open Viml Viml.Spec

/-! ### What is used of a statement -/

/-- Text that is written as it is. -/
def textOf : Ast.Stmt → Str
  | .comment _ t => t
  | .echohl _ _ t => t
  | .catch_ _ _ _ t => t
  | _ => []

structure S (s : Ast.Stmt) : Prop where
  name : nameOK s
  parts : wellPlaced s
  exprs : ∀ e ∈ exprsOf s, GE e ∧ '\n' ∉ (sx e).text
  text : '\n' ∉ textOf s
  targets : targetsOK s
  clear : clearS s
  sig : ∀ q ea b n ps da at_ e, s = .function q ea b n ps da at_ e → SigS ps da ∧ '\n' ∉ words (sigWords ps da)
  op : ∀ q ea op l ls rest r, s = .let_ q ea op l ls rest r → op ∈ letOps

/-! ### Names and arguments -/

/-- The word a line starts with. -/
def nm : Ast.Stmt → Str
  | .excmd .. => cs!"excmd"
  | .function .. => cs!"function"
  | s => match exArgOf s with
    | some ea => nameOf ea
    | none => []

/-- The rest of a line. -/
def args (d : Nat) : Ast.Stmt → Str
  | .comment .. => []
  | .excmd _ _ s => cs!" \"" ++ bs s ++ cs!"\")"
  | .function _ _ _ n ps da _ _ => cs!" (" ++ ((sx n).text ++
    ((if ps = [] then [] else indent d ++ cs!" " ++ indent d ++ words (sigWords ps da)) ++ indent d ++ cs!")"))
  | .delFunction _ _ n => ' ' :: ((sx n).text ++ cs!")")
  | .return_ _ _ (some e) => ' ' :: ((sx e).text ++ cs!")")
  | .return_ _ _ none => cs!")"
  | .exCall _ _ f lp as => ' ' :: ((sx (.call f lp as)).text ++ cs!")")
  | .let_ _ _ op l ls rest r => ' ' :: (op ++ ' ' :: (lhsText l ls rest ++ ' ' :: ((sx r).text ++ cs!")")))
  | .unLet _ _ ls => ' ' :: (sxWords ls ++ cs!")")
  | .lockVar _ _ d ls => ' ' :: ((depthWord d ++ sxWords ls) ++ cs!")")
  | .unLockVar _ _ d ls => ' ' :: ((depthWord d ++ sxWords ls) ++ cs!")")
  | .if_ _ _ _ c _ _ _ => ' ' :: (sx c).text
  | .elseIf _ _ _ c => ' ' :: (sx c).text
  | .else_ .. => []
  | .while_ _ _ _ c _ => ' ' :: (sx c).text
  | .for_ _ _ _ l ls rest r _ => ' ' :: (lhsText l ls rest ++ ' ' :: (sx r).text)
  | .continue_ .. => cs!")"
  | .break_ .. => cs!")"
  | .try_ .. => []
  | .catch_ _ _ _ p => if p = [] then [] else ' ' :: '/' :: (p ++ cs!"/")
  | .finally_ .. => []
  | .throw _ _ e => ' ' :: ((sx e).text ++ cs!")")
  | .eval _ _ e => ' ' :: ((sx e).text ++ cs!")")
  | .echoCmd _ _ _ es => ' ' :: (sxWords es ++ cs!")")
  | .echohl _ _ n => ' ' :: '"' :: (bs n ++ cs!"\")")
  | .execute _ _ es => ' ' :: (sxWords es ++ cs!")")

def isComment : Ast.Stmt → Bool
  | .comment .. => true
  | _ => false

theorem head_eq (d : Nat) (s : Ast.Stmt) (h : isComment s = false) :
    head d s = (if part s = 1 then [] else ['(']) ++ (nm s ++ args d s) := by
  cases s
  case return_ q ea r => cases r <;> simp [head, firstLine, form, nm, args, part, kind, isPart, exArgOf]
  case comment => cases h
  case catch_ q ea b p => by_cases hp : p = [] <;> simp [head, nm, args, part, kind, isPart, exArgOf, hp]
  all_goals simp [head, firstLine, form, nm, args, part, kind, isPart, exArgOf]

/-- The names of a node. -/
def nms : Ast.Stmt → List Str
  | .excmd .. => [cs!"excmd"]
  | s => cmdNames s

theorem nameOf_named {ea : Ast.ExArg} {n : Str} (h : Named ea n) : nameOf ea = n := by
  obtain ⟨c, h1, h2⟩ := h
  simp [nameOf, h1, h2]

theorem nm_mem {s : Ast.Stmt} (h : nameOK s) (hc : isComment s = false) : nm s ∈ nms s := by
  cases s
  case comment => cases hc
  case excmd => simp [nm, nms]
  case function => simp [nm, nms, cmdNames]
  case echoCmd q n ea es =>
    obtain ⟨h1, h2⟩ := h
    simp only [nm, exArgOf, nameOf_named h1, nms, cmdNames]
    exact h2
  all_goals
    obtain ⟨ea, n, h1, h2, h3⟩ := h
    simp only [nm, h1, nameOf_named h2, nms]
    exact h3

theorem nms_alpha (s : Ast.Stmt) : ∀ n ∈ nms s, n ≠ [] ∧ ∀ c ∈ n, isalpha c = true := by
  have : ∀ n ∈ nms s, n.isEmpty = false ∧ n.all isalpha = true := by
    cases s <;> simp only [nms, cmdNames] <;> decide
  intro n hn
  obtain ⟨h1, h2⟩ := this n hn
  refine ⟨?_, by simpa using h2⟩
  intro e
  subst e
  cases h1

/-- A number for every kind of node. -/
def stag : Ast.Stmt → Nat
  | .comment .. => 0
  | .excmd .. => 1
  | .function .. => 2
  | .delFunction .. => 3
  | .return_ .. => 4
  | .exCall .. => 5
  | .let_ .. => 6
  | .unLet .. => 7
  | .lockVar .. => 8
  | .unLockVar .. => 9
  | .if_ .. => 10
  | .elseIf .. => 11
  | .else_ .. => 12
  | .while_ .. => 13
  | .for_ .. => 14
  | .continue_ .. => 15
  | .break_ .. => 16
  | .try_ .. => 17
  | .catch_ .. => 18
  | .finally_ .. => 19
  | .throw .. => 20
  | .eval .. => 21
  | .echoCmd .. => 22
  | .echohl .. => 23
  | .execute .. => 24

/-- The number of a word. -/
def tagW (n : Str) : Nat :=
  if n = cs!"const" then 6 else if n ∈ [cs!"echo", cs!"echon", cs!"echomsg", cs!"echoerr"] then 22 else
    [cs!"", cs!"excmd", cs!"function", cs!"delfunction", cs!"return", cs!"call", cs!"let", cs!"unlet", cs!"lockvar",
      cs!"unlockvar", cs!"if", cs!"elseif", cs!"else", cs!"while", cs!"for", cs!"continue", cs!"break", cs!"try",
      cs!"catch", cs!"finally", cs!"throw", cs!"eval", cs!"echo", cs!"echohl", cs!"execute"].idxOf n

theorem stag_eq (s : Ast.Stmt) : ∀ n ∈ nms s, tagW n = stag s := by
  cases s <;> simp only [nms, cmdNames, stag] <;> decide

theorem args_sep (d : Nat) (s : Ast.Stmt) : ∀ c t, args d s = c :: t → isalpha c = false := by
  intro c t h
  cases s
  case return_ q ea r => cases r <;> (simp only [args, List.cons.injEq] at h; rw [← h.1]; decide)
  case catch_ q ea b p =>
    simp only [args] at h
    split at h
    · cases h
    · simp only [List.cons.injEq] at h; rw [← h.1]; decide
  all_goals
    simp only [args, List.cons_append, List.cons.injEq, reduceCtorEq] at h <;> (rw [← h.1]; decide)

theorem head_comment (d : Nat) (s : Ast.Stmt) (h : isComment s = true) : head d s = ';' :: textOf s := by
  cases s <;> first | rfl | (simp [isComment] at h; done)

/-- The first character of a line. -/
theorem head_first {d : Nat} {s : Ast.Stmt} (hn : nameOK s) : ∃ c t, head d s = c :: t ∧
    (c = ';' ∧ isComment s = true ∨ isComment s = false ∧ (c = '(' ∧ part s = 0 ∨ isalpha c = true ∧ part s = 1)) := by
  cases hc : isComment s
  · rw [head_eq d s hc]
    have hp := part_le s
    split
    · rename_i h1
      obtain ⟨h2, h3⟩ := nms_alpha s _ (nm_mem hn hc)
      cases h4 : nm s with
      | nil => exact absurd h4 h2
      | cons c t =>
        rw [h4] at h3
        exact ⟨c, t ++ args d s, rfl, .inr ⟨rfl, .inr ⟨h3 c (by simp), h1⟩⟩⟩
    · exact ⟨'(', _, rfl, .inr ⟨rfl, .inl ⟨rfl, by omega⟩⟩⟩
  · exact ⟨';', _, head_comment d s hc, .inl ⟨rfl, rfl⟩⟩

theorem head_split {d : Nat} {s s' : Ast.Stmt} (hn : nameOK s) (hn' : nameOK s') (e : head d s = head d s') :
    isComment s = true ∧ isComment s' = true ∧ textOf s = textOf s' ∨
    isComment s = false ∧ isComment s' = false ∧ nm s = nm s' ∧ args d s = args d s' := by
  obtain ⟨c, t, h1, h2⟩ := head_first (d := d) hn
  obtain ⟨c', t', h1', h2'⟩ := head_first (d := d) hn'
  have hcc : c = c' := by rw [h1, h1'] at e; exact (List.cons.inj e).1
  subst hcc
  rcases h2 with ⟨rfl, h2⟩ | ⟨h2, h3⟩
  · rcases h2' with ⟨_, h2'⟩ | ⟨h2', h3'⟩
    · rw [head_comment d s h2, head_comment d s' h2'] at e
      exact .inl ⟨h2, h2', (List.cons.inj e).2⟩
    · rcases h3' with ⟨h, _⟩ | ⟨h, _⟩
      · cases h
      · exact absurd h (by decide)
  · rcases h2' with ⟨rfl, h2'⟩ | ⟨h2', h3'⟩
    · rcases h3 with ⟨h, _⟩ | ⟨h, _⟩
      · cases h
      · exact absurd h (by decide)
    · have hp : part s = part s' := by
        rcases h3 with ⟨rfl, p⟩ | ⟨a, p⟩ <;> rcases h3' with ⟨h, p'⟩ | ⟨a', p'⟩
        · rw [p, p']
        · exact absurd a' (by decide)
        · subst h; exact absurd a (by decide)
        · rw [p, p']
      rw [head_eq d s h2, head_eq d s' h2', hp] at e
      have e1 := List.append_cancel_left e
      obtain ⟨e2, e3⟩ := run_eq (f := isalpha) _ _ _ _ (nms_alpha s _ (nm_mem hn h2)).2
        (nms_alpha s' _ (nm_mem hn' h2')).2 (args_sep d s) (args_sep d s') e1
      exact .inr ⟨h2, h2', e2, e3⟩

/-! ### The line without the body -/

/-- The statement without its body and its parts. -/
def strip : Ast.Stmt → Ast.Stmt
  | .function q ea _ n ps da a e => .function q ea [] n ps da a e
  | .if_ q ea _ c _ _ e => .if_ q ea [] c [] none e
  | .elseIf q ea _ c => .elseIf q ea [] c
  | .else_ q ea _ => .else_ q ea []
  | .while_ q ea _ c e => .while_ q ea [] c e
  | .for_ q ea _ l ls rest r e => .for_ q ea [] l ls rest r e
  | .try_ q ea _ _ _ e => .try_ q ea [] [] none e
  | .catch_ q ea _ p => .catch_ q ea [] p
  | .finally_ q ea _ => .finally_ q ea []
  | s => s

theorem plainEa_eq {ea ea' : Ast.ExArg} {n n' : Str} (h : Named ea n) (h' : Named ea' n') (e : nameOf ea = nameOf ea') :
    plainEa ea = plainEa ea' := by
  obtain ⟨c, h1, _⟩ := h
  obtain ⟨c', h1', _⟩ := h'
  simp only [nameOf, h1, h1', Option.map_some, Option.getD_some] at e
  simp [plainEa, h1, h1', e]

/-- The name of a command and what is used of it. -/
theorem ea_eq {s s' : Ast.Stmt} (hn : nameOK s) (hn' : nameOK s') (e : nm s = nm s') {ea ea' : Ast.ExArg}
    (h : exArgOf s = some ea) (h' : exArgOf s' = some ea') (hs : stag s ≠ 1 ∧ stag s ≠ 2) (hs' : stag s' ≠ 1 ∧ stag s' ≠ 2) :
    plainEa ea = plainEa ea' := by
  have : ∀ {s ea}, nameOK s → exArgOf s = some ea → stag s ≠ 1 ∧ stag s ≠ 2 → nm s = nameOf ea ∧ ∃ n, Named ea n := by
    intro s ea hn h hs
    cases s
    case comment => cases h
    case excmd => simp [stag] at hs
    case function => simp [stag] at hs
    case echoCmd => cases h; exact ⟨rfl, _, hn.1⟩
    all_goals
      obtain ⟨ea', n, h1, h2, _⟩ := hn
      rw [h] at h1
      cases h1
      exact ⟨by simp only [nm, h], n, h2⟩
  obtain ⟨h1, n, h2⟩ := this hn h hs
  obtain ⟨h1', n', h2'⟩ := this hn' h' hs'
  exact plainEa_eq h2 h2' (by rw [← h1, ← h1', e])

theorem letOps_noblank : ∀ op ∈ letOps, ∀ c ∈ op, (c != ' ') = true := by decide

theorem blank_stop (r : Str) : ∀ c t, ' ' :: r = c :: t → (c != ' ') = false := by
  intro c t h
  cases h
  rfl

theorem indent_stop (d : Nat) (r : Str) : Stop (indent d ++ ')' :: r) := by
  cases d with
  | zero => exact stop_close r
  | succ d =>
    rw [indent_blanks, show 2 * (d + 1) = 2 * d + 1 + 1 by omega, List.replicate_succ]
    exact stop_blank _

theorem indent_stop' (d : Nat) (r : Str) : Stop (indent d ++ ' ' :: r) := by
  cases d with
  | zero => exact stop_blank r
  | succ d =>
    rw [indent_blanks, show 2 * (d + 1) = 2 * d + 1 + 1 by omega, List.replicate_succ]
    exact stop_blank _

theorem func_inj {d : Nat} {n n' : Ast.Expr} {ps ps' : List Ast.Ident} {da da' : List Ast.Expr} (hn : GE n) (hn' : GE n')
    (hd : ∀ e ∈ da, GE e) (hd' : ∀ e ∈ da', GE e) (h : SigS ps da) (h' : SigS ps' da')
    (e : (sx n).text ++ ((if ps = [] then [] else indent d ++ cs!" " ++ indent d ++ words (sigWords ps da)) ++ indent d ++ cs!")") =
      (sx n').text ++ ((if ps' = [] then [] else indent d ++ cs!" " ++ indent d ++ words (sigWords ps' da')) ++ indent d ++ cs!")")) :
    bare n = bare n' ∧ plainP ps = plainP ps' ∧ bareL da = bareL da' := by
  have stop : ∀ (ps : List Ast.Ident) (da : List Ast.Expr),
      Stop ((if ps = [] then [] else indent d ++ cs!" " ++ indent d ++ words (sigWords ps da)) ++ indent d ++ cs!")") := by
    intro ps da
    split
    · exact indent_stop d []
    · simp only [List.append_assoc]
      exact indent_stop' d _
  obtain ⟨e1, e2⟩ := rdE hn hn' (stop ps da) (stop ps' da') e
  refine ⟨e1, ?_⟩
  have nil : ∀ {da : List Ast.Expr}, SigS [] da → da = [] := by
    rintro da ⟨_, a, b, d, h1, h2, _⟩
    have : b = [] := by
      cases b with
      | nil => rfl
      | cons => simp at h1
    subst this
    exact List.length_eq_zero_iff.1 h2.symm
  have no : ∀ u : Str, indent d ++ cs!")" = indent d ++ cs!" " ++ u → False := by
    intro u h
    rw [List.append_assoc] at h
    have := List.append_cancel_left h
    cases this
  split at e2 <;> rename_i h1 <;> split at e2 <;> rename_i h2
  · subst h1 h2
    rw [nil h, nil h']
    exact ⟨rfl, rfl⟩
  · exact (no _ (by rw [List.nil_append] at e2; rw [e2, List.append_assoc, List.append_assoc, List.append_assoc])).elim
  · exact (no _ (by rw [List.nil_append] at e2; rw [← e2, List.append_assoc, List.append_assoc, List.append_assoc])).elim
  · refine sig_inj h h' hd hd' ?_
    have e3 := List.append_cancel_right (List.append_cancel_right e2)
    exact List.append_cancel_left e3

theorem lhs_read {l l' : Option Ast.Expr} {ls ls' : List Ast.Expr} {x x' : Option Ast.Expr} {a a' : Ast.Expr} (hs : LhsShape l ls x)
    (hs' : LhsShape l' ls' x') (h : ∀ e ∈ l.toList ++ ls ++ x.toList ++ [a], GE e ∧ '\n' ∉ (sx e).text)
    (h' : ∀ e ∈ l'.toList ++ ls' ++ x'.toList ++ [a'], GE e ∧ '\n' ∉ (sx e).text) (hc : clearTargets ls) (hc' : clearTargets ls')
    {r r' : Str} (hr : Stop r) (hr' : Stop r')
    (e : lhsText l ls x ++ ' ' :: ((sx a).text ++ r) = lhsText l' ls' x' ++ ' ' :: ((sx a').text ++ r')) :
    bareO l = bareO l' ∧ bareL ls = bareL ls' ∧ bareO x = bareO x' ∧ bare a = bare a' ∧ r = r' := by
  have g : ∀ e ∈ l.toList ++ ls ++ x.toList, GE e := fun e he => (h e (List.mem_append_left _ he)).1
  have g' : ∀ e ∈ l'.toList ++ ls' ++ x'.toList, GE e := fun e he => (h' e (List.mem_append_left _ he)).1
  obtain ⟨k1, k2⟩ := lhs_texts hs g
  obtain ⟨k1', k2'⟩ := lhs_texts hs' g'
  rw [k1, k1'] at e
  obtain ⟨e1, e2⟩ := read k2 k2' (stop_blank _) (stop_blank _) e
  obtain ⟨e3, e4, e5⟩ := lhs_inj hs hs' g g' hc hc' e1
  obtain ⟨e6, e7⟩ := rdE (h a (by simp)).1 (h' a' (by simp)).1 hr hr' (List.cons.inj e2).2
  exact ⟨e3, e4, e5, e6, e7⟩

theorem one_read {a a' : Ast.Expr} (h : GE a) (h' : GE a') {r r' : Str} (hr : Stop r) (hr' : Stop r')
    (e : ' ' :: ((sx a).text ++ r) = ' ' :: ((sx a').text ++ r')) : bare a = bare a' :=
  (rdE h h' hr hr' (List.cons.inj e).2).1

theorem one_read' {a a' : Ast.Expr} (h : GE a) (h' : GE a')
    (e : ' ' :: (sx a).text = ' ' :: (sx a').text) : bare a = bare a' :=
  one_read (r := []) (r' := []) h h' stop_nil stop_nil (by simpa using e)

theorem lock_read {d d' : Nat} {ls ls' : List Ast.Expr} (h : ∀ e ∈ ls, GE e) (h' : ∀ e ∈ ls', GE e) (hn : ls ≠ []) (hn' : ls' ≠ [])
    (hc : d = 0 → ∀ e, ls.head? = some e → ¬ isNumber e) (hc' : d' = 0 → ∀ e, ls'.head? = some e → ¬ isNumber e)
    (e : ' ' :: ((depthWord d ++ sxWords ls) ++ cs!")") = ' ' :: ((depthWord d' ++ sxWords ls') ++ cs!")")) :
    d = d' ∧ bareL ls = bareL ls' := by
  obtain ⟨k1, k2⟩ := depth_texts (d := d) h hn
  obtain ⟨k1', k2'⟩ := depth_texts (d := d') h' hn'
  have e1 := (List.cons.inj e).2
  rw [k1, k1'] at e1
  exact depth_inj h h' hc hc' (rdT k2 k2' e1).1

/-- The first line determines everything but the body. -/
theorem line_inj {d : Nat} {s s' : Ast.Stmt} (h : S s) (h' : S s') (e : head d s = head d s') :
    plain (strip s) = plain (strip s') := by
  rcases head_split h.name h'.name e with ⟨h1, h2, h3⟩ | ⟨h1, h2, hm, ha⟩
  · cases s <;> first | (cases h1; done) | skip
    cases s' <;> first | (cases h2; done) | skip
    simp only [textOf] at h3
    simp only [strip, plain, h3]
  · have ht : stag s = stag s' := by
      rw [← stag_eq s _ (nm_mem h.name h1), hm, stag_eq s' _ (nm_mem h'.name h2)]
    have hea := fun ea ea' => ea_eq (ea := ea) (ea' := ea') h.name h'.name hm
    clear e
    cases s <;> cases s' <;> first | (simp only [stag] at ht; cases ht; done) | skip
    case comment => cases h1
    case excmd =>
      simp only [args, List.cons_append, List.nil_append, List.cons.injEq, true_and] at ha
      simp only [strip, plain, (bs_unique _ _ _ _ ha).1]
    case function q ea b n ps da at_ e q' ea' b' n' ps' da' at_' e' =>
      simp only [args, List.cons_append, List.nil_append, List.cons.injEq, true_and] at ha
      obtain ⟨k1, k2, k3⟩ := func_inj (h.exprs n (by simp [exprsOf])).1 (h'.exprs n' (by simp [exprsOf])).1
        (fun e he => (h.exprs e (by simp [exprsOf, he])).1) (fun e he => (h'.exprs e (by simp [exprsOf, he])).1)
        (h.sig _ _ _ _ _ _ _ _ rfl).1 (h'.sig _ _ _ _ _ _ _ _ rfl).1 ha
      simp only [plainP] at k2
      simp only [strip, plain, k1, k2, k3]
    case delFunction q ea n q' ea' n' =>
      simp only [strip, plain, hea _ _ rfl rfl (by simp [stag]) (by simp [stag]),
        one_read (h.exprs n (by simp [exprsOf])).1 (h'.exprs n' (by simp [exprsOf])).1 (stop_close _) (stop_close _) ha]
    case return_ q ea r q' ea' r' =>
      have k := hea _ _ rfl rfl (by simp [stag]) (by simp [stag])
      cases r <;> cases r'
      · simp only [strip, plain, k]
      · exact absurd (List.cons.inj ha).1 (by decide)
      · exact absurd (List.cons.inj ha).1 (by decide)
      · rename_i a a'
        simp only [strip, plain, k, bareO,
          one_read (h.exprs a (by simp [exprsOf])).1 (h'.exprs a' (by simp [exprsOf])).1 (stop_close _) (stop_close _) ha]
    case exCall q ea f lp as q' ea' f' lp' as' =>
      have k := one_read (h.exprs _ (by simp [exprsOf])).1 (h'.exprs _ (by simp [exprsOf])).1 (stop_close _) (stop_close _) ha
      simp only [bare, Ast.Expr.call.injEq, true_and] at k
      simp only [strip, plain, hea _ _ rfl rfl (by simp [stag]) (by simp [stag]), k]
    case let_ q ea op l ls rest r q' ea' op' l' ls' rest' r' =>
      obtain ⟨e1, e2⟩ := run_eq (f := (· != ' ')) _ _ _ _ (letOps_noblank op (h.op _ _ _ _ _ _ _ rfl))
        (letOps_noblank op' (h'.op _ _ _ _ _ _ _ rfl)) (blank_stop _) (blank_stop _) (List.cons.inj ha).2
      obtain ⟨k1, k2, k3, k4, _⟩ := lhs_read h.targets.1 h'.targets.1 h.exprs h'.exprs h.clear.2 h'.clear.2 (stop_close _)
        (stop_close _) (List.cons.inj e2).2
      simp only [strip, plain, hea _ _ rfl rfl (by simp [stag]) (by simp [stag]), e1, k1, k2, k3, k4]
    case unLet q ea ls q' ea' ls' =>
      simp only [strip, plain, hea _ _ rfl rfl (by simp [stag]) (by simp [stag]),
        (rdL (a := ls) (b := ls') (fun e he => (h.exprs e he).1) (fun e he => (h'.exprs e he).1) (List.cons.inj ha).2).1]
    case lockVar q ea d ls q' ea' d' ls' =>
      obtain ⟨x, l, hx, _⟩ := h.targets
      obtain ⟨x', l', hx', _⟩ := h'.targets
      obtain ⟨k1, k2⟩ := lock_read (ls := ls) (ls' := ls') (fun e he => (h.exprs e he).1) (fun e he => (h'.exprs e he).1) (by simp [hx]) (by simp [hx'])
        h.clear.2 h'.clear.2 ha
      simp only [strip, plain, hea _ _ rfl rfl (by simp [stag]) (by simp [stag]), k1, k2]
    case unLockVar q ea d ls q' ea' d' ls' =>
      obtain ⟨x, l, hx, _⟩ := h.targets
      obtain ⟨x', l', hx', _⟩ := h'.targets
      obtain ⟨k1, k2⟩ := lock_read (ls := ls) (ls' := ls') (fun e he => (h.exprs e he).1) (fun e he => (h'.exprs e he).1) (by simp [hx]) (by simp [hx'])
        h.clear.2 h'.clear.2 ha
      simp only [strip, plain, hea _ _ rfl rfl (by simp [stag]) (by simp [stag]), k1, k2]
    case if_ q ea b c eis el e q' ea' b' c' eis' el' e' =>
      simp only [strip, plain, hea _ _ rfl rfl (by simp [stag]) (by simp [stag]),
        one_read' (h.exprs c (by simp [exprsOf])).1 (h'.exprs c' (by simp [exprsOf])).1 ha]
    case elseIf q ea b c q' ea' b' c' =>
      simp only [strip, plain, hea _ _ rfl rfl (by simp [stag]) (by simp [stag]),
        one_read' (h.exprs c (by simp [exprsOf])).1 (h'.exprs c' (by simp [exprsOf])).1 ha]
    case while_ q ea b c e q' ea' b' c' e' =>
      simp only [strip, plain, hea _ _ rfl rfl (by simp [stag]) (by simp [stag]),
        one_read' (h.exprs c (by simp [exprsOf])).1 (h'.exprs c' (by simp [exprsOf])).1 ha]
    case for_ q ea b l ls rest r e q' ea' b' l' ls' rest' r' e' =>
      obtain ⟨k1, k2, k3, k4, _⟩ := lhs_read (r := []) (r' := []) h.targets h'.targets h.exprs h'.exprs h.clear.2 h'.clear.2
        stop_nil stop_nil (by simpa [args] using ha)
      simp only [strip, plain, hea _ _ rfl rfl (by simp [stag]) (by simp [stag]), k1, k2, k3, k4]
    case catch_ q ea b p q' ea' b' p' =>
      have k : p = p' := by
        simp only [args] at ha
        split at ha <;> rename_i h3 <;> split at ha <;> rename_i h4
        · rw [h3, h4]
        · cases ha
        · cases ha
        · simpa using ha
      simp only [strip, plain, hea _ _ rfl rfl (by simp [stag]) (by simp [stag]), k]
    case throw q ea n q' ea' n' =>
      simp only [strip, plain, hea _ _ rfl rfl (by simp [stag]) (by simp [stag]),
        one_read (h.exprs n (by simp [exprsOf])).1 (h'.exprs n' (by simp [exprsOf])).1 (stop_close _) (stop_close _) ha]
    case eval q ea n q' ea' n' =>
      simp only [strip, plain, hea _ _ rfl rfl (by simp [stag]) (by simp [stag]),
        one_read (h.exprs n (by simp [exprsOf])).1 (h'.exprs n' (by simp [exprsOf])).1 (stop_close _) (stop_close _) ha]
    case echoCmd q n ea ls q' n' ea' ls' =>
      have k : n = n' := by
        have := hm
        simp only [nm, exArgOf, nameOf_named h.name.1, nameOf_named h'.name.1] at this
        exact this
      simp only [strip, plain, hea _ _ rfl rfl (by simp [stag]) (by simp [stag]), k,
        (rdL (a := ls) (b := ls') (fun e he => (h.exprs e he).1) (fun e he => (h'.exprs e he).1) (List.cons.inj ha).2).1]
    case execute q ea ls q' ea' ls' =>
      simp only [strip, plain, hea _ _ rfl rfl (by simp [stag]) (by simp [stag]),
        (rdL (a := ls) (b := ls') (fun e he => (h.exprs e he).1) (fun e he => (h'.exprs e he).1) (List.cons.inj ha).2).1]
    case echohl q ea n q' ea' n' =>
      simp only [args, List.cons.injEq, true_and] at ha
      simp only [strip, plain, hea _ _ rfl rfl (by simp [stag]) (by simp [stag]), (bs_unique _ _ _ _ ha).1]
    all_goals simp only [strip, plain, hea _ _ rfl rfl (by simp [stag]) (by simp [stag])]

end Viml.Readable
