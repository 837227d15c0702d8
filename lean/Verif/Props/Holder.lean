/-
C70: an expression means the same as the argument of a command.
-/
import Verif.Lemmas.HolderBlock
import Verif.Props.File
import Verif.Props.Phrase
import Verif.Lemmas.Lookup

namespace Viml
open Spec

namespace Props
variable {nv : Bool} {fn n l v op : Str} {c : Cmd} {e : Ast.Expr}

/-- A line of one command. -/
theorem one_line {ea : Ast.ExArg} {r2 ra r3 : List Cell} {x : Ast.Stmt} {used' : List Str} {u w : Str} (hc : c.name ∈ wordCmds)
    (h1 : CmdHead nv (mkEnv [l]) fn [] (lineAt [] l) (lineAt [] l) ea c ra r2 used')
    (h2 : Spec.Simple (mkEnv [l]) fn { top := true } (lineAt [] l) ra ea c r2 [x] r3) (h3 : Reads r3 w (lineAt u []))
    (hw : ∀ c ∈ w, iswhite c = true) : Only nv fn l x := by
  refine ⟨(C52_lines ..).2 ⟨used', ?_, ?_⟩, line_complete (low_word hc) h1 h2 h3 hw⟩
  · rw [cut_buf]
    exact .simple (ss := []) .nil h1 h2 (trail_last h3 hw)
  · rw [cut_buf, here_cut]
    rfl

/-- C70.  `:eval`, `:throw`, `:echo` and its variants and `:execute` with the line `l` as argument: the statement has the tree
that `ParseExpr` returns for `l`, moved.  `n` is the name of the command or an abbreviation. -/
theorem C70_command (hc : c.name ∈ exprCmds) (ht : TableCmd nv n c) (h : Phrase l e)
    (hw : ∀ x, l.head? = some x → iswhite x = false) :
    Only nv fn (n ++ ' ' :: l)
      (exprStmt c (posAt fn 0) (record c (posAt fn 0) (posAt fn (bytes n + 1))) (e.onPos (moveTo fn (bytes n + 1)))) := by
  have hc' : c.name ∈ wordCmds := List.mem_append.2 (.inl hc)
  have h1 := line_head (mkEnv [n ++ ' ' :: l]) fn [] hc' ht hw
  obtain ⟨r', w, h2, h3, h4⟩ := h.last (env := mkEnv [n ++ ' ' :: l]) (fn := fn) (n ++ [' '])
  rw [show bytes (n ++ [' ']) = bytes n + 1 by count] at h2
  have more : Exprs (mkEnv [n ++ ' ' :: l]) fn (lineAt (n ++ [' ']) l) [e.onPos (moveTo fn (bytes n + 1))] (lineAt (n ++ [' '] ++ l) []) :=
    .cons (skip_cut hw) (gram_not_end h2) h2 (.nil ⟨w, h3, h4, rfl⟩ (.inl (.inl rfl)))
  have last := Reads.nil (lineAt (n ++ [' '] ++ l) [])
  have lastw : ∀ c ∈ ([] : Str), iswhite c = true := by simp
  unfold exprStmt
  simp only [exprCmds, List.mem_cons, List.not_mem_nil, or_false] at hc
  have echo : c.name ∈ [cs!"echo", cs!"echon", cs!"echomsg", cs!"echoerr"] → c.name ≠ cs!"eval" ∧ c.name ≠ cs!"throw" ∧
      c.name ≠ cs!"execute" := by
    intro h
    simp only [List.mem_cons, List.not_mem_nil, or_false] at h
    rcases h with h | h | h | h <;> rw [h] <;> decide
  by_cases h5 : c.name = cs!"eval"
  · rw [if_pos h5]
    exact one_line hc' h1 (.eval h5 h2) h3 h4
  · rw [if_neg h5]
    by_cases h6 : c.name = cs!"throw"
    · rw [if_pos h6]
      exact one_line hc' h1 (.throw h6 h2) h3 h4
    · rw [if_neg h6]
      by_cases h7 : c.name = cs!"execute"
      · rw [if_pos h7]
        exact one_line hc' h1 (.execute h7 more) last lastw
      · rw [if_neg h7]
        refine one_line hc' h1 (.echo ?_ more) last lastw
        simp only [List.mem_cons, List.not_mem_nil, or_false]
        simpa [h5, h6, h7] using hc

/-- C70.  `:let v op expr`, for all assignment operators. -/
theorem C70_let (hc : c.name = cs!"let") (ht : TableCmd nv n c) (hv : VarName v) (hw : ¬ isWord v) (ho : op ∈ letOps)
    (h : Phrase l e) :
    Only nv fn (n ++ ' ' :: (v ++ ' ' :: (op ++ ' ' :: l)))
      (.let_ (posAt fn 0) (record c (posAt fn 0) (posAt fn (bytes n + 1))) op (some (.ident ⟨posAt fn (bytes n + 1), v⟩)) [] none
        (e.onPos (moveTo fn (bytes n + bytes v + bytes op + 3)))) := by
  have hc' : c.name ∈ wordCmds := by rw [hc]; decide
  generalize hL : n ++ ' ' :: (v ++ ' ' :: (op ++ ' ' :: l)) = L
  obtain ⟨x, s, ev, hx, _⟩ := varName_chars hv
  have h1 := line_head (mkEnv [L]) fn [] hc' ht (l := v ++ ' ' :: (op ++ ' ' :: l)) (by
    rw [ev]
    rintro _ ⟨⟩
    exact white_of (f := iswordc1) (by decide) hx)
  rw [hL] at h1
  obtain ⟨t1, t2, t3, t4⟩ := var_target (env := mkEnv [L]) (fn := fn) hv hw (cut_reads v (n ++ [' ']) (' ' :: (op ++ ' ' :: l))) rfl
    (letOp_lex ho)
  rw [here_cut, show bytes (n ++ [' ']) = bytes n + 1 by count] at t1
  have h2 := cut_reads [' '] (n ++ [' '] ++ v) (op ++ ' ' :: l)
  have h3 := cut_reads op (n ++ [' '] ++ v ++ [' ']) (' ' :: l)
  have h4 := cut_reads [' '] (n ++ [' '] ++ v ++ [' '] ++ op) l
  obtain ⟨r', w, h5, h6, h7⟩ := h.last (env := mkEnv [L]) (fn := fn) (n ++ [' '] ++ v ++ [' '] ++ op ++ [' '])
  rw [show bytes (n ++ [' '] ++ v ++ [' '] ++ op ++ [' ']) = bytes n + bytes v + bytes op + 3 by count] at h5
  have h5 := gram_lead h5 ⟨[' '], h4, by decide⟩
  have h8 := letOp_start ho (n ++ [' '] ++ v ++ [' ']) l
  have h9 : Spec.Simple (mkEnv [L]) fn { top := true } (lineAt [] L) (lineAt (n ++ [' ']) (v ++ ' ' :: (op ++ ' ' :: l)))
      (record c (posAt fn 0) (posAt fn (bytes n + 1))) c (lineAt (n ++ [' ']) (v ++ ' ' :: (op ++ ' ' :: l)))
      [.let_ (posAt fn 0) (record c (posAt fn 0) (posAt fn (bytes n + 1))) op (some (.ident ⟨posAt fn (bytes n + 1), v⟩)) [] none
        (e.onPos (moveTo fn (bytes n + bytes v + bytes op + 3)))] r' :=
    .let_ hc ⟨_, _, t4, t3, .one t2 t1, [' '], h2, by decide, h8.1⟩ ho h8.2 h3 h5
  exact one_line hc' h1 h9 h6 h7

/-- C70.  `:const v = expr`. -/
theorem C70_const (hc : c.name = cs!"const") (ht : TableCmd nv n c) (hv : VarName v) (hw : ¬ isWord v) (h : Phrase l e) :
    Only nv fn (n ++ ' ' :: (v ++ ' ' :: (cs!"=" ++ ' ' :: l)))
      (.let_ (posAt fn 0) (record c (posAt fn 0) (posAt fn (bytes n + 1))) cs!"=" (some (.ident ⟨posAt fn (bytes n + 1), v⟩)) [] none
        (e.onPos (moveTo fn (bytes n + bytes v + 4)))) := by
  have hc' : c.name ∈ wordCmds := by rw [hc]; decide
  generalize hL : n ++ ' ' :: (v ++ ' ' :: (cs!"=" ++ ' ' :: l)) = L
  obtain ⟨x, s, ev, hx, _⟩ := varName_chars hv
  have ho : cs!"=" ∈ letOps := by decide
  have h1 := line_head (mkEnv [L]) fn [] hc' ht (l := v ++ ' ' :: (cs!"=" ++ ' ' :: l)) (by
    rw [ev]
    rintro _ ⟨⟩
    exact white_of (f := iswordc1) (by decide) hx)
  rw [hL] at h1
  obtain ⟨t1, t2, t3, t4⟩ := var_target (env := mkEnv [L]) (fn := fn) hv hw
    (cut_reads v (n ++ [' ']) (' ' :: (cs!"=" ++ ' ' :: l))) rfl (letOp_lex ho)
  rw [here_cut, show bytes (n ++ [' ']) = bytes n + 1 by count] at t1
  have h2 := cut_reads [' '] (n ++ [' '] ++ v) (cs!"=" ++ ' ' :: l)
  have h3 := cut_reads cs!"=" (n ++ [' '] ++ v ++ [' ']) (' ' :: l)
  have h4 := cut_reads [' '] (n ++ [' '] ++ v ++ [' '] ++ cs!"=") l
  obtain ⟨r', w, h5, h6, h7⟩ := h.last (env := mkEnv [L]) (fn := fn) (n ++ [' '] ++ v ++ [' '] ++ cs!"=" ++ [' '])
  rw [show bytes (n ++ [' '] ++ v ++ [' '] ++ cs!"=" ++ [' ']) = bytes n + bytes v + 4 by
    count
    rw [show '='.utf8Size = 1 from rfl]
    omega] at h5
  have h5 := gram_lead h5 ⟨[' '], h4, by decide⟩
  have h9 : Spec.Simple (mkEnv [L]) fn { top := true } (lineAt [] L) (lineAt (n ++ [' ']) (v ++ ' ' :: (cs!"=" ++ ' ' :: l)))
      (record c (posAt fn 0) (posAt fn (bytes n + 1))) c (lineAt (n ++ [' ']) (v ++ ' ' :: (cs!"=" ++ ' ' :: l)))
      [.let_ (posAt fn 0) (record c (posAt fn 0) (posAt fn (bytes n + 1))) cs!"=" (some (.ident ⟨posAt fn (bytes n + 1), v⟩)) [] none
        (e.onPos (moveTo fn (bytes n + bytes v + 4)))] r' :=
    .const_ hc ⟨_, _, t4, t3, .one t2 ⟨t1, .inl ⟨_, rfl⟩⟩, [' '], h2, by decide, rfl⟩ h3 h5
  exact one_line hc' h1 h9 h6 h7

/-- C70.  `:call` with a function call. -/
theorem C70_call {f : Ast.Expr} {q : Ast.Pos} {as : List Ast.Expr} (hc : c.name = cs!"call") (ht : TableCmd nv n c)
    (h : Phrase l (.call f q as)) (hw : ∀ x, l.head? = some x → iswhite x = false) (hq : l.head? ≠ some '"') :
    Only nv fn (n ++ ' ' :: l)
      (.exCall (posAt fn 0) (record c (posAt fn 0) (posAt fn (bytes n + 1))) (f.onPos (moveTo fn (bytes n + 1)))
        (moveTo fn (bytes n + 1) q) (Ast.Expr.onPosL (moveTo fn (bytes n + 1)) as)) := by
  have hc' : c.name ∈ wordCmds := by rw [hc]; decide
  have h1 := line_head (mkEnv [n ++ ' ' :: l]) fn [] hc' ht hw
  obtain ⟨r', w, h2, h3, h4⟩ := h.last (env := mkEnv [n ++ ' ' :: l]) (fn := fn) (n ++ [' '])
  rw [show bytes (n ++ [' ']) = bytes n + 1 by count] at h2
  refine one_line hc' h1 (.call hc (skip_cut hw) ?_ h2) h3 h4
  have := gram_not_end h2
  rintro (e | e | e)
  · exact this (.inl e)
  · exact this (.inr e)
  · cases l with
    | nil => cases e
    | cons a l =>
      cases e
      exact hq rfl

/-! Blocks -/

/-- A line that opens a block with an expression. -/
theorem opens_line {m : Str} {used : List Str} (hc : c.name = m) (hm : m ∈ wordCmds) (ht : TableCmd nv n c) (h : Phrase l e)
    (hw : ∀ x, l.head? = some x → iswhite x = false) :
    Spec.Opens nv (mkEnv [n ++ ' ' :: l]) fn m (Gram (mkEnv [n ++ ' ' :: l]) fn 1) used (lineAt [] (n ++ ' ' :: l))
      (record c (posAt fn 0) (posAt fn (bytes n + 1))) (e.onPos (moveTo fn (bytes n + 1))) [] used [] := by
  have h1 := line_head (mkEnv [n ++ ' ' :: l]) fn used (hc ▸ hm) ht hw
  obtain ⟨r', w, h2, h3, h4⟩ := h.last (env := mkEnv [n ++ ' ' :: l]) (fn := fn) (n ++ [' '])
  rw [show bytes (n ++ [' ']) = bytes n + 1 by count] at h2
  exact ⟨_, _, _, _, _, hc, h1, h2, trail_last h3 h4⟩

/-- A file that is one block. -/
theorem one_block {x : Ast.Stmt} {L : List Str} {used : List Str} {r' : List Cell} 
    (h : Block nv (mkEnv (l :: L)) fn { top := true } [] (mkEnv (l :: L)).buf x used r') (h2 : Trail (mkEnv (l :: L)) fn r' [] [])
    (hB : NoCont L) : parseFileLines nv fn (l :: L) = some ⟨some ⟨posAt fn 0, [x]⟩, none⟩ := by
  refine (C52_lines ..).2 ⟨used, .block (ss := []) .nil h h2, ?_⟩
  rw [← lineFirst_tr (fn := fn) hB]
  cases l <;> rfl

variable {m : Str} {d : Cmd}

theorem word_noCont (hd : TableCmd nv m d) (hc : d.name ∈ wordCmds) {s : Str} : afterBackslash (m ++ s) = none := by
  have hn := wordName hd hc
  obtain ⟨x, t, rfl, hx⟩ := hn.cons
  have h := alpha_not (hn.alpha x (by simp)).1
  have hb : blank x = false := by
    have key : ∀ y ∈ [' ', '\t', '\n', '\x0c', '\r'], isalpha y = false := by decide
    refine Bool.eq_false_iff.2 fun e => ?_
    have := key x (by simpa [blank] using e)
    rw [(hn.alpha x (by simp)).1] at this
    cases this
  unfold afterBackslash
  rw [List.cons_append, List.dropWhile_cons, if_neg (by rw [hb]; decide)]
  split
  · rename_i e
    cases e
    exact absurd h.2.2.2.2.2 (by decide)
  · rfl

/-- C70.  The condition of `:while`. -/
theorem C70_while (hc : c.name = cs!"while") (ht : TableCmd nv n c) (hd : d.name = cs!"endwhile") (ht' : TableCmd nv m d)
    (h : Phrase l e) (hw : ∀ x, l.head? = some x → iswhite x = false) :
    parseFileLines nv fn [n ++ ' ' :: l, m] = some ⟨some ⟨posAt fn 0,
      [.while_ (posAt fn 0) (record c (posAt fn 0) (posAt fn (bytes n + 1))) [] (e.onPos (moveTo fn (bytes n + 1)))
        (endAt fn [n ++ ' ' :: l] m d)]⟩, none⟩ := by
  have hd' : d.name ∈ wordCmds := by rw [hd]; decide
  have hm := word_noCont ht' hd' (s := [])
  rw [List.append_nil] at hm
  have hB : NoCont [m] := by rintro _ ⟨⟩; exact hm
  obtain ⟨u1, h1⟩ := opens_first (B := [m]) hB (low_of (by decide)) Carry.argGram (expr_id _)
    (opens_line (fn := fn) (used := []) hc (by decide) ht h hw)
  obtain ⟨u2, r', h2, h3⟩ := closes_last (A := [n ++ ' ' :: l]) (fn := fn) (used := u1) hd' ht' hm
  rw [hd] at h2
  exact one_block (.while_ h1 .nil h2) h3 hB

theorem if_more {L B : List Str} {ea : Ast.ExArg} {x : Ast.Expr} {k : Str} {d : Cmd} (hd : d.name = cs!"elseif")
    (ht : TableCmd nv k d) (hB : NoCont B) : ∀ {ys : List (Str × Ast.Expr)} {A : List Str} {eis : List Ast.Stmt} {used : List Str},
    (∀ y ∈ ys, Phrase y.1 y.2 ∧ ∀ x, y.1.head? = some x → iswhite x = false) → L = A ++ (holdLines k ys ++ B) →
    IfPart nv (mkEnv L) fn { top := true } [] (mkEnv L).buf ea [] x eis used (behind A (holdLines k ys ++ B)) →
    ∃ used', IfPart nv (mkEnv L) fn { top := true } [] (mkEnv L).buf ea [] x (eis ++ elseIfs fn k d A ys) used'
      (behind (A ++ holdLines k ys) B)
  | [], A, eis, used, _, _, h => ⟨used, by simpa [holdLines, elseIfs] using h⟩
  | (l, e) :: ys, A, eis, used, hy, hL, h => by
    have hd' : d.name ∈ wordCmds := by rw [hd]; decide
    have hB' : NoCont (holdLines k ys ++ B) := by
      cases ys with
      | nil => exact hB
      | cons y ys => rintro _ ⟨⟩; exact word_noCont ht hd'
    obtain ⟨h1, h2⟩ := hy (l, e) (by simp)
    obtain ⟨u1, h3⟩ := opens_in (A := A) hB' (word_noCont ht hd') (low_of (by decide)) Carry.argGram
      (opens_line (fn := fn) (used := used) hd (by decide) ht h1 h2)
    dsimp only [lineIn] at h3
    rw [show A ++ (k ++ ' ' :: l) :: (holdLines k ys ++ B) = L from hL.symm] at h3
    have h4 := IfPart.elseif (ss' := []) h h3 .nil
    obtain ⟨u2, h5⟩ := if_more (A := A ++ [k ++ ' ' :: l]) hd ht hB (fun y h => hy y (by simp [h])) (by simpa [holdLines] using hL) h4
    simp only [holdLines, List.append_assoc, List.cons_append, List.nil_append, List.map_cons] at h5 ⊢
    exact ⟨u2, h5⟩

/-- C70.  The conditions of `:if` and of any number of `:elseif`s. -/
theorem C70_if {k : Str} {f : Cmd} {ys : List (Str × Ast.Expr)} (hc : c.name = cs!"if") (ht : TableCmd nv n c)
    (hf : f.name = cs!"elseif") (ht2 : TableCmd nv k f) (hd : d.name = cs!"endif") (ht' : TableCmd nv m d)
    (h : Phrase l e) (hw : ∀ x, l.head? = some x → iswhite x = false)
    (hy : ∀ y ∈ ys, Phrase y.1 y.2 ∧ ∀ x, y.1.head? = some x → iswhite x = false) :
    parseFileLines nv fn ((n ++ ' ' :: l) :: (holdLines k ys ++ [m])) = some ⟨some ⟨posAt fn 0,
      [.if_ (posAt fn 0) (record c (posAt fn 0) (posAt fn (bytes n + 1))) [] (e.onPos (moveTo fn (bytes n + 1)))
        (elseIfs fn k f [n ++ ' ' :: l] ys) none (endAt fn ((n ++ ' ' :: l) :: holdLines k ys) m d)]⟩, none⟩ := by
  have hd' : d.name ∈ wordCmds := by rw [hd]; decide
  have hf' : f.name ∈ wordCmds := by rw [hf]; decide
  have hm := word_noCont ht' hd' (s := [])
  rw [List.append_nil] at hm
  have hB : NoCont [m] := by rintro _ ⟨⟩; exact hm
  have hB' : NoCont (holdLines k ys ++ [m]) := by
    cases ys with
    | nil => exact hB
    | cons y ys => rintro _ ⟨⟩; exact word_noCont ht2 hf'
  obtain ⟨u1, h1⟩ := opens_first (B := holdLines k ys ++ [m]) hB' (low_of (by decide)) Carry.argGram (expr_id _)
    (opens_line (fn := fn) (used := []) hc (by decide) ht h hw)
  obtain ⟨u2, h4⟩ := if_more (A := [n ++ ' ' :: l]) hf ht2 hB hy rfl (.if_ (ss := []) h1 .nil)
  obtain ⟨u3, r', h2, h3⟩ := closes_last (A := (n ++ ' ' :: l) :: holdLines k ys) (fn := fn) (used := u2) hd' ht' hm
  rw [hd] at h2
  exact one_block (.if_ h4 h2) h3 hB'

/-- C70.  The list of `:for`. -/
theorem C70_for (hc : c.name = cs!"for") (ht : TableCmd nv n c) (hd : d.name = cs!"endfor") (ht' : TableCmd nv m d)
    (hv : VarName v) (hw : ¬ isWord v) (h : Phrase l e) :
    parseFileLines nv fn [n ++ ' ' :: (v ++ ' ' :: (cs!"in" ++ ' ' :: l)), m] = some ⟨some ⟨posAt fn 0,
      [.for_ (posAt fn 0) (record c (posAt fn 0) (posAt fn (bytes n + 1))) [] (some (.ident ⟨posAt fn (bytes n + 1), v⟩)) [] none
        (e.onPos (moveTo fn (bytes n + bytes v + 5))) (endAt fn [n ++ ' ' :: (v ++ ' ' :: (cs!"in" ++ ' ' :: l))] m d)]⟩, none⟩ := by
  have hc' : c.name ∈ wordCmds := by rw [hc]; decide
  have hd' : d.name ∈ wordCmds := by rw [hd]; decide
  have hm := word_noCont ht' hd' (s := [])
  rw [List.append_nil] at hm
  have hB : NoCont [m] := by rintro _ ⟨⟩; exact hm
  generalize hL : n ++ ' ' :: (v ++ ' ' :: (cs!"in" ++ ' ' :: l)) = L
  obtain ⟨x, s, ev, hx, _⟩ := varName_chars hv
  have h1 := line_head (mkEnv [L]) fn [] hc' ht (l := v ++ ' ' :: (cs!"in" ++ ' ' :: l)) (by
    rw [ev]
    rintro _ ⟨⟩
    exact white_of (f := iswordc1) (by decide) hx)
  rw [hL] at h1
  obtain ⟨t1, t2, t3, t4⟩ := var_target (env := mkEnv [L]) (fn := fn) hv hw
    (cut_reads v (n ++ [' ']) (' ' :: (cs!"in" ++ ' ' :: l))) rfl in_lex
  rw [here_cut, show bytes (n ++ [' ']) = bytes n + 1 by count] at t1
  have h2 := cut_reads [' '] (n ++ [' '] ++ v) (cs!"in" ++ ' ' :: l)
  have h3 := cut_reads cs!"in" (n ++ [' '] ++ v ++ [' ']) (' ' :: l)
  have h4 := cut_reads [' '] (n ++ [' '] ++ v ++ [' '] ++ cs!"in") l
  obtain ⟨r', w, h5, h6, h7⟩ := h.last (env := mkEnv [L]) (fn := fn) (n ++ [' '] ++ v ++ [' '] ++ cs!"in" ++ [' '])
  rw [show bytes (n ++ [' '] ++ v ++ [' '] ++ cs!"in" ++ [' ']) = bytes n + bytes v + 5 by
    count
    rw [show 'i'.utf8Size = 1 from rfl, show 'n'.utf8Size = 1 from rfl]
    omega] at h5
  have h5 := gram_lead h5 ⟨[' '], h4, by decide⟩
  have h8 : Spec.Opens nv (mkEnv [L]) fn cs!"for" (ForArgs (mkEnv [L]) fn) [] (lineAt [] L)
      (record c (posAt fn 0) (posAt fn (bytes n + 1)))
      (some (.ident ⟨posAt fn (bytes n + 1), v⟩), [], none, e.onPos (moveTo fn (bytes n + bytes v + 5))) [] [] [] :=
    ⟨_, _, _, _, _, hc, h1, .mk (.one t2 t1) ⟨[' '], h2, by decide, rfl⟩ ⟨h3, by decide, rfl⟩ h5, trail_last h6 h7⟩
  obtain ⟨u1, h9⟩ := opens_first (B := [m]) hB (low_of (by decide)) Carry.argFor (by
    simp only [lineFirst, Ast.Expr.onPosO, expr_id, Ast.Expr.onPosL]) h8
  obtain ⟨u2, r', h10, h11⟩ := closes_last (A := [L]) (fn := fn) (used := u1) hd' ht' hm
  rw [hd] at h10
  exact one_block (.for_ h9 .nil h10) h11 hB

/-- The first line of a function without arguments. -/
theorem func_line {g k : Str} {f : Cmd} (hf : f.name = cs!"function") (ht2 : TableCmd nv k f) (hg : PlainName g)
    (hg2 : ∃ x t, g = x :: t ∧ (x = '_' ∨ isupper x = true ∨ ':' ∈ g ∨ '#' ∈ g)) :
    Spec.Opens nv (mkEnv [k ++ ' ' :: (g ++ cs!"()")]) fn cs!"function" (FuncArgs (mkEnv [k ++ ' ' :: (g ++ cs!"()")]) fn) []
      (lineAt [] (k ++ ' ' :: (g ++ cs!"()"))) (record f (posAt fn 0) (posAt fn (bytes k + 1)))
      (.ident ⟨posAt fn (bytes k + 1), g⟩, [], [], ⟨false, false, false, false⟩) [] [] [] := by
  have hf' : f.name ∈ wordCmds := by rw [hf]; decide
  generalize hL : k ++ ' ' :: (g ++ cs!"()") = L
  obtain ⟨x, t, rfl, hx⟩ := hg2
  have hx1 : iswordc1 x = true := by
    obtain ⟨⟨y, s, e, h1, _⟩, _⟩ := hg
    cases e
    exact h1
  have h1 := line_head (mkEnv [L]) fn [] hf' ht2 (l := x :: t ++ cs!"()") (by
    rintro _ ⟨⟩
    exact white_of (f := iswordc1) (by decide) hx1)
  rw [hL] at h1
  have h2 := func_name (env := mkEnv [L]) (fn := fn) (u := k ++ [' ']) hg (by
    rintro _ ⟨⟩
    exact ⟨x, t, rfl, .inr hx⟩)
  rw [show bytes (k ++ [' ']) = bytes k + 1 by count] at h2
  exact ⟨_, _, _, _, _, hf, h1, h2, trail_last (Reads.nil _) (by simp)⟩

/-- C70.  `:return` in a function. -/
theorem C70_return {g k : Str} {f : Cmd} (hf : f.name = cs!"function") (ht2 : TableCmd nv k f) (hc : c.name = cs!"return")
    (ht : TableCmd nv n c) (hd : d.name = cs!"endfunction") (ht' : TableCmd nv m d) (hg : PlainName g)
    (hg2 : ∃ x t, g = x :: t ∧ (x = '_' ∨ isupper x = true ∨ ':' ∈ g ∨ '#' ∈ g))
    (h : Phrase l e) (hw : ∀ x, l.head? = some x → iswhite x = false) :
    parseFileLines nv fn [k ++ ' ' :: (g ++ cs!"()"), n ++ ' ' :: l, m] = some ⟨some ⟨posAt fn 0,
      [.function (posAt fn 0) (record f (posAt fn 0) (posAt fn (bytes k + 1)))
        [.return_ (shift [k ++ ' ' :: (g ++ cs!"()")] [n ++ ' ' :: l] (posAt fn 0))
          ((record c (posAt fn 0) (posAt fn (bytes n + 1))).onPos (shift [k ++ ' ' :: (g ++ cs!"()")] [n ++ ' ' :: l]))
          (some ((e.onPos (moveTo fn (bytes n + 1))).onPos (shift [k ++ ' ' :: (g ++ cs!"()")] [n ++ ' ' :: l])))]
        (.ident ⟨posAt fn (bytes k + 1), g⟩) [] [] ⟨false, false, false, false⟩
        (endAt fn [k ++ ' ' :: (g ++ cs!"()"), n ++ ' ' :: l] m d)]⟩, none⟩ := by
  have hc' : c.name ∈ wordCmds := by rw [hc]; decide
  have hd' : d.name ∈ wordCmds := by rw [hd]; decide
  have hf' : f.name ∈ wordCmds := by rw [hf]; decide
  have hm := word_noCont ht' hd' (s := [])
  rw [List.append_nil] at hm
  have hB : NoCont [m] := by rintro _ ⟨⟩; exact hm
  have hB' : NoCont [n ++ ' ' :: l, m] := by rintro _ ⟨⟩; exact word_noCont ht hc'
  have h3 := func_line (fn := fn) hf ht2 hg hg2
  generalize k ++ ' ' :: (g ++ cs!"()") = L at h3 ⊢
  obtain ⟨u1, h4⟩ := opens_first (B := [n ++ ' ' :: l, m]) hB' (low_of (by decide)) Carry.argFunc rfl h3
  -- the second line
  have h5 := line_head (mkEnv [n ++ ' ' :: l]) fn u1 hc' ht hw
  obtain ⟨r', w, h6, h7, h8⟩ := h.last (env := mkEnv [n ++ ' ' :: l]) (fn := fn) (n ++ [' '])
  rw [show bytes (n ++ [' ']) = bytes n + 1 by count] at h6
  obtain ⟨u2, h9⟩ := simple_in (A := [L]) (cx := Ctx.fun { top := true }) hB (word_noCont ht hc') (low_word hc') h5
    (.return_ hc rfl (skip_cut hw) (gram_not_end h6) h6) h7 h8
  obtain ⟨u3, r', h10, h11⟩ := closes_last (A := [L, n ++ ' ' :: l]) (fn := fn) (used := u2) hd' ht' hm
  rw [hd] at h10
  exact one_block (.function h4 h9 h10) h11 hB'

/-! Examples -/

theorem cmd_of {x : Str} (h : (lookupTable nv n).map Cmd.name = some x) : ∃ c, c.name = x ∧ TableCmd nv n c := by
  obtain ⟨c, h1, h2⟩ := Option.map_eq_some_iff.1 h
  exact ⟨c, h2, lookupTable_iff.1 h1⟩

-- `exe f(x).'y'`: the abbreviation takes the expression
example : ∃ c e, c.name = cs!"execute" ∧ parseExprLines [cs!"f(x).'y'"] = some ⟨some e, none⟩ ∧
    parseFileLines false cs!"a.vim" [cs!"exe f(x).'y'"] = some ⟨some ⟨posAt cs!"a.vim" 0,
      [.execute (posAt cs!"a.vim" 0) (record c (posAt cs!"a.vim" 0) (posAt cs!"a.vim" 4)) [e.onPos (moveTo cs!"a.vim" 4)]]⟩, none⟩ := by
  obtain ⟨c, h1, h2⟩ := cmd_of (nv := false) (n := cs!"exe") (x := cs!"execute") (by decide +kernel)
  obtain ⟨e, h3⟩ := phrase_of_run (l := cs!"f(x).'y'") (w := []) (by decide +kernel) (by simp)
  refine ⟨c, e, h1, C69_value h3, ?_⟩
  have := (C70_command (fn := cs!"a.vim") (by rw [h1]; decide) h2 h3 (by rintro _ ⟨⟩; decide)).1
  rw [show bytes cs!"exe" + 1 = 4 from rfl] at this
  simpa [exprStmt, h1] using this

-- `let g:x ..= [1] + a ? b : c`
example : ∃ c e, Only true cs!"a.vim" cs!"let g:x ..= a ? [b] : -c" (.let_ (posAt cs!"a.vim" 0)
    (record c (posAt cs!"a.vim" 0) (posAt cs!"a.vim" 4)) cs!"..=" (some (.ident ⟨posAt cs!"a.vim" 4, cs!"g:x"⟩)) [] none e) := by
  obtain ⟨c, h1, h2⟩ := cmd_of (nv := true) (n := cs!"let") (x := cs!"let") (by decide +kernel)
  obtain ⟨e, h3⟩ := phrase_of_run (l := cs!"a ? [b] : -c") (w := []) (by decide +kernel) (by simp)
  exact ⟨c, _, C70_let (v := cs!"g:x") (op := cs!"..=") h1 h2 (.inr ⟨cs!"g:", 'x', [], rfl, .inr ⟨'g', rfl, by decide⟩, by decide, by simp⟩)
    (by simp [isWord]) (by decide) h3⟩

-- `if`, two `elseif`s and `en`
example : ∃ (c d f : Cmd) (e e1 e2 : Ast.Expr), parseFileLines false [] [cs!"if a", cs!"elsei b()", cs!"elsei {x -> x}", cs!"en"] = some ⟨some ⟨posAt [] 0,
      [.if_ (posAt [] 0) (record c (posAt [] 0) (posAt [] 3)) [] (e.onPos (moveTo [] 3))
        (elseIfs [] cs!"elsei" f [cs!"if a"] [(cs!"b()", e1), (cs!"{x -> x}", e2)]) none
        (endAt [] [cs!"if a", cs!"elsei b()", cs!"elsei {x -> x}"] cs!"en" d)]⟩, none⟩ := by
  obtain ⟨c, h1, h2⟩ := cmd_of (nv := false) (n := cs!"if") (x := cs!"if") (by decide +kernel)
  obtain ⟨d, h3, h4⟩ := cmd_of (nv := false) (n := cs!"en") (x := cs!"endif") (by decide +kernel)
  obtain ⟨f, h5, h6⟩ := cmd_of (nv := false) (n := cs!"elsei") (x := cs!"elseif") (by decide +kernel)
  obtain ⟨e, h7⟩ := phrase_of_run (l := cs!"a") (w := []) (by decide +kernel) (by simp)
  obtain ⟨e1, h8⟩ := phrase_of_run (l := cs!"b()") (w := []) (by decide +kernel) (by simp)
  obtain ⟨e2, h9⟩ := phrase_of_run (l := cs!"{x -> x}") (w := []) (by decide +kernel) (by simp)
  have := C70_if (fn := []) (ys := [(cs!"b()", e1), (cs!"{x -> x}", e2)]) h1 h2 h5 h6 h3 h4 h7 (by rintro _ ⟨⟩; decide) ?_
  · exact ⟨c, d, f, e, e1, e2, this⟩
  simp only [List.mem_cons, List.not_mem_nil, or_false]
  rintro y (rfl | rfl)
  · exact ⟨h8, by rintro _ ⟨⟩; decide⟩
  · exact ⟨h9, by rintro _ ⟨⟩; decide⟩

-- `return` in a function of a plugin
example : ∃ st, parseFileLines false [] [cs!"fu p#g()", cs!"retu a + 1", cs!"endf"] = some ⟨some ⟨posAt [] 0, [st]⟩, none⟩ := by
  obtain ⟨c, h1, h2⟩ := cmd_of (nv := false) (n := cs!"retu") (x := cs!"return") (by decide +kernel)
  obtain ⟨d, h3, h4⟩ := cmd_of (nv := false) (n := cs!"endf") (x := cs!"endfunction") (by decide +kernel)
  obtain ⟨f, h5, h6⟩ := cmd_of (nv := false) (n := cs!"fu") (x := cs!"function") (by decide +kernel)
  obtain ⟨e, h7⟩ := phrase_of_run (l := cs!"a + 1") (w := []) (by decide +kernel) (by simp)
  have := C70_return (fn := []) (g := cs!"p#g") h5 h6 h1 h2 h3 h4 ⟨⟨'p', cs!"#g", rfl, by decide, by decide⟩, by simp [isWord]⟩
    ⟨'p', cs!"#g", rfl, by decide⟩ h7 (by rintro _ ⟨⟩; decide)
  exact ⟨_, this⟩

-- `for` and `while`
example : (∃ st, parseFileLines false [] [cs!"for x in [1, 2]", cs!"endfo"] = some ⟨some ⟨posAt [] 0, [st]⟩, none⟩) ∧
    ∃ st, parseFileLines false [] [cs!"wh !x", cs!"endw"] = some ⟨some ⟨posAt [] 0, [st]⟩, none⟩ := by
  obtain ⟨c, h1, h2⟩ := cmd_of (nv := false) (n := cs!"for") (x := cs!"for") (by decide +kernel)
  obtain ⟨d, h3, h4⟩ := cmd_of (nv := false) (n := cs!"endfo") (x := cs!"endfor") (by decide +kernel)
  obtain ⟨e, h7⟩ := phrase_of_run (l := cs!"[1, 2]") (w := []) (by decide +kernel) (by simp)
  obtain ⟨c', h1', h2'⟩ := cmd_of (nv := false) (n := cs!"wh") (x := cs!"while") (by decide +kernel)
  obtain ⟨d', h3', h4'⟩ := cmd_of (nv := false) (n := cs!"endw") (x := cs!"endwhile") (by decide +kernel)
  obtain ⟨e', h7'⟩ := phrase_of_run (l := cs!"!x") (w := []) (by decide +kernel) (by simp)
  have h8 := C70_for (fn := []) (v := cs!"x") h1 h2 h3 h4 (.inr ⟨[], 'x', [], rfl, .inl rfl, by decide, by simp⟩) (by simp [isWord]) h7
  have h9 := C70_while (fn := []) h1' h2' h3' h4' h7' (by rintro _ ⟨⟩; decide)
  exact ⟨⟨_, h8⟩, ⟨_, h9⟩⟩

end Props
end Viml
