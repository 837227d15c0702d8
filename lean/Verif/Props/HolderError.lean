/-
C71: a wrong expression gives the same error as the argument of a command.
-/
import Verif.Lemmas.HolderError
import Verif.Props.Holder
import Verif.Props.ConcatError

namespace Viml
open Spec

namespace Props
variable {nv : Bool} {fn n l v op : Str} {c : Cmd} {off line col : Nat} {msg : Str}

/-- A wrong argument of a command on the only line. -/
theorem one_error {ea : Ast.ExArg} {r2 ra : List Cell} {used' : List Str} {p : Str} {q : Pos}
    (hp : ∀ m', ¬ Misplaced { top := true } none c.name m')
    (h1 : CmdHead nv (mkEnv [p ++ l]) fn [] (lineAt [] (p ++ l)) (lineAt [] (p ++ l)) ea c ra r2 used')
    (h2 : ArgErr (mkEnv [p ++ l]) fn c ea.usefilter ra r2 msg (movePos p q)) :
    errorAt nv fn p l q.i q.lnum q.col msg := by
  obtain ⟨rc, h3⟩ := head_at h1
  refine (C54_lines nv fn _ none fn _ _ _ msg).2 ⟨rfl, rfl, movePos p q, rfl, rfl, rfl, .line .start ?_⟩
  rw [cut_buf]
  exact .args h3 hp h2

theorem not_misplaced {x : Str} (hc : c.name = x) (hx : x ∈ [cs!"eval", cs!"throw", cs!"echo", cs!"echon", cs!"echomsg", cs!"echoerr",
    cs!"execute", cs!"if", cs!"while", cs!"let", cs!"const", cs!"call", cs!"for"]) : ∀ m', ¬ Misplaced { top := true } none c.name m' := by
  intro m h
  rw [hc] at h
  have key : ∀ y ∈ [cs!"elseif", cs!"else", cs!"endif", cs!"endwhile", cs!"endfor", cs!"continue", cs!"break", cs!"catch", cs!"finally",
    cs!"endtry", cs!"return", cs!"endfunction"], y ∉ [cs!"eval", cs!"throw", cs!"echo", cs!"echon", cs!"echomsg", cs!"echoerr",
    cs!"execute", cs!"if", cs!"while", cs!"let", cs!"const", cs!"call", cs!"for"] := by decide
  refine key x ?_ hx
  cases h <;> decide

/-- C71.  A command with the wrong expression `l` gives the error of `ParseExpr` for `l`, moved behind the command. -/
theorem C71_command (hc : c.name ∈ exprCmds ++ [cs!"if", cs!"while", cs!"call"]) (ht : TableCmd nv n c)
    (h : parseExprLines [l] = some ⟨none, some (.parse [] off line col msg)⟩)
    (hw : ∃ x s, l = x :: s ∧ iswhite x = false ∧ x ≠ '|' ∧ (x = '"' → c.name ≠ cs!"call")) :
    errorAt nv fn (n ++ [' ']) l off line col msg := by
  obtain ⟨m, q, e, h1⟩ := (C53_lines ..).1 h
  cases e
  obtain ⟨x, s, rfl, hx, hb, hq⟩ := hw
  have hw : ∀ y, (x :: s).head? = some y → iswhite y = false := by rintro _ ⟨⟩; exact hx
  have hc' : c.name ∈ wordCmds := by
    have key : ∀ y ∈ exprCmds ++ [cs!"if", cs!"while", cs!"call"], y ∈ wordCmds := by decide
    exact key _ hc
  have h2 := line_head (mkEnv [n ++ ' ' :: x :: s]) fn [] hc' ht hw
  rw [show n ++ ' ' :: x :: s = n ++ [' '] ++ x :: s by simp] at h2
  have h3 := gErr_behind (fn := fn) (n ++ [' ']) h1
  have ne : ¬ (AtEnd (lineAt (n ++ [' ']) (x :: s)) ∨ headSym (lineAt (n ++ [' ']) (x :: s)) = .ch '|') := by
    rintro ((e | e) | e)
    · cases e
    · cases e
    · cases e
      exact hb rfl
  have sk : Skip (lineAt (n ++ [' ']) (x :: s)) (lineAt (n ++ [' ']) (x :: s)) := skip_cut hw
  refine one_error (not_misplaced rfl ?_) h2 ?_
  · have key : ∀ y ∈ exprCmds ++ [cs!"if", cs!"while", cs!"call"], y ∈ [cs!"eval", cs!"throw", cs!"echo", cs!"echon", cs!"echomsg", cs!"echoerr",
      cs!"execute", cs!"if", cs!"while", cs!"let", cs!"const", cs!"call", cs!"for"] := by decide
    exact key _ hc
  · simp only [exprCmds, List.cons_append, List.nil_append, List.mem_cons, List.not_mem_nil, or_false] at hc
    rcases hc with e | e | e | e | e | e | e | e | e | e
    · exact .expr (by simp [e]) h3
    · exact .expr (by simp [e]) h3
    · exact .exprs (by simp [e]) (.first sk ne h3)
    · exact .exprs (by simp [e]) (.first sk ne h3)
    · exact .exprs (by simp [e]) (.first sk ne h3)
    · exact .exprs (by simp [e]) (.first sk ne h3)
    · exact .exprs (by simp [e]) (.first sk ne h3)
    · exact .expr (by simp [e]) h3
    · exact .expr (by simp [e]) h3
    · refine .call e sk ?_ h3
      rintro (e1 | e1 | e1)
      · exact ne (.inl e1)
      · exact ne (.inr e1)
      · cases e1
        exact hq rfl e

/-- A command with a variable. -/
theorem head_var (fn : Str) (hc : c.name ∈ wordCmds) (ht : TableCmd nv n c) (hv : VarName v) (op l : Str) :
    CmdHead nv (mkEnv [n ++ ' ' :: (v ++ ' ' :: (op ++ [' '])) ++ l]) fn []
      (lineAt [] (n ++ ' ' :: (v ++ ' ' :: (op ++ [' '])) ++ l)) (lineAt [] (n ++ ' ' :: (v ++ ' ' :: (op ++ [' '])) ++ l))
      (record c (posAt fn 0) (posAt fn (bytes n + 1))) c (lineAt (n ++ [' ']) (v ++ ' ' :: (op ++ ' ' :: l)))
      (lineAt (n ++ [' ']) (v ++ ' ' :: (op ++ ' ' :: l))) [] := by
  have hL : n ++ ' ' :: (v ++ ' ' :: (op ++ ' ' :: l)) = n ++ ' ' :: (v ++ ' ' :: (op ++ [' '])) ++ l := by simp
  obtain ⟨x, s, ev, hx, _⟩ := varName_chars hv
  have h2 := line_head (mkEnv [n ++ ' ' :: (v ++ ' ' :: (op ++ ' ' :: l))]) fn [] hc ht (l := v ++ ' ' :: (op ++ ' ' :: l)) (by
    rw [ev]
    rintro _ ⟨⟩
    exact white_of (f := iswordc1) (by decide) hx)
  rwa [hL] at h2

/-- The error of an expression behind the operator. -/
theorem gErr_op {q : Pos} (n v op : Str) (h : GErr (mkEnv [l]) [] 1 (mkEnv [l]).buf msg q) :
    GErr (mkEnv [n ++ ' ' :: (v ++ ' ' :: (op ++ [' '])) ++ l]) fn 1 (lineAt (n ++ [' '] ++ v ++ [' '] ++ op) (' ' :: l)) msg
      (movePos (n ++ ' ' :: (v ++ ' ' :: (op ++ [' ']))) q) := by
  have h5 := cut_reads [' '] (n ++ [' '] ++ v ++ [' '] ++ op) l
  have h6 := gErr_behind (fn := fn) (n ++ ' ' :: (v ++ ' ' :: (op ++ [' ']))) h
  rw [show n ++ [' '] ++ v ++ [' '] ++ op ++ [' '] = n ++ ' ' :: (v ++ ' ' :: (op ++ [' '])) by simp] at h5
  refine gErr_lead (mkEnv_ok _) h6 ?_ ⟨[' '], h5, by decide⟩
  have := cut_reads (n ++ [' '] ++ v ++ [' '] ++ op) [] ([' '] ++ l)
  unfold Suf
  rw [cut_buf]
  simpa using this.suf

/-- C71.  The same for the value of `:let`, for all assignment operators. -/
theorem C71_let (hc : c.name = cs!"let") (ht : TableCmd nv n c) (hv : VarName v) (hw : ¬ isWord v) (ho : op ∈ letOps)
    (h : parseExprLines [l] = some ⟨none, some (.parse [] off line col msg)⟩) :
    errorAt nv fn (n ++ ' ' :: (v ++ ' ' :: (op ++ [' ']))) l off line col msg := by
  obtain ⟨m, q, e, h1⟩ := (C53_lines ..).1 h
  cases e
  have hc' : c.name ∈ wordCmds := by rw [hc]; decide
  have h2 := head_var fn hc' ht hv (op) l
  obtain ⟨t1, t2, t3, t4⟩ := var_target (env := mkEnv [n ++ ' ' :: (v ++ ' ' :: (op ++ [' '])) ++ l]) (fn := fn) hv hw
    (cut_reads v (n ++ [' ']) (' ' :: (op ++ ' ' :: l))) rfl (letOp_lex ho)
  have h3 := cut_reads [' '] (n ++ [' '] ++ v) (op ++ ' ' :: l)
  have h4 := cut_reads op (n ++ [' '] ++ v ++ [' ']) (' ' :: l)
  have h7 := gErr_op (fn := fn) n v (op) h1
  have h8 := letOp_start ho (n ++ [' '] ++ v ++ [' ']) l
  exact one_error (not_misplaced hc (by decide)) h2
    (.let_ hc ⟨_, _, t4, t3, .one t2 t1, [' '], h3, by decide, h8.1⟩ ho h8.2 h4 h7)

/-- C71.  The same for the value of `:const`. -/
theorem C71_const (hc : c.name = cs!"const") (ht : TableCmd nv n c) (hv : VarName v) (hw : ¬ isWord v)
    (h : parseExprLines [l] = some ⟨none, some (.parse [] off line col msg)⟩) :
    errorAt nv fn (n ++ ' ' :: (v ++ ' ' :: (cs!"=" ++ [' ']))) l off line col msg := by
  obtain ⟨m, q, e, h1⟩ := (C53_lines ..).1 h
  cases e
  have ho : cs!"=" ∈ letOps := by decide
  have hc' : c.name ∈ wordCmds := by rw [hc]; decide
  have h2 := head_var fn hc' ht hv (cs!"=") l
  obtain ⟨t1, t2, t3, t4⟩ := var_target (env := mkEnv [n ++ ' ' :: (v ++ ' ' :: (cs!"=" ++ [' '])) ++ l]) (fn := fn) hv hw
    (cut_reads v (n ++ [' ']) (' ' :: (cs!"=" ++ ' ' :: l))) rfl (letOp_lex ho)
  have h3 := cut_reads [' '] (n ++ [' '] ++ v) (cs!"=" ++ ' ' :: l)
  have h4 := cut_reads cs!"=" (n ++ [' '] ++ v ++ [' ']) (' ' :: l)
  have h7 := gErr_op (fn := fn) n v (cs!"=") h1
  exact one_error (not_misplaced hc (by decide)) h2
    (.const_ hc ⟨_, _, t4, t3, .one t2 ⟨t1, .inl ⟨_, rfl⟩⟩, [' '], h3, by decide, rfl⟩ h4 h7)

/-- C71.  The same for the list of `:for`. -/
theorem C71_for (hc : c.name = cs!"for") (ht : TableCmd nv n c) (hv : VarName v) (hw : ¬ isWord v)
    (h : parseExprLines [l] = some ⟨none, some (.parse [] off line col msg)⟩) :
    errorAt nv fn (n ++ ' ' :: (v ++ ' ' :: (cs!"in" ++ [' ']))) l off line col msg := by
  obtain ⟨m, q, e, h1⟩ := (C53_lines ..).1 h
  cases e
  have hc' : c.name ∈ wordCmds := by rw [hc]; decide
  have h2 := head_var fn hc' ht hv (cs!"in") l
  obtain ⟨t1, t2, t3, t4⟩ := var_target (env := mkEnv [n ++ ' ' :: (v ++ ' ' :: (cs!"in" ++ [' '])) ++ l]) (fn := fn) hv hw
    (cut_reads v (n ++ [' ']) (' ' :: (cs!"in" ++ ' ' :: l))) rfl in_lex
  have h3 := cut_reads [' '] (n ++ [' '] ++ v) (cs!"in" ++ ' ' :: l)
  have h4 := cut_reads cs!"in" (n ++ [' '] ++ v ++ [' ']) (' ' :: l)
  have h7 := gErr_op (fn := fn) n v (cs!"in") h1
  exact one_error (not_misplaced hc (by decide)) h2
    (.for_ hc (.one t2 t1) ⟨[' '], h3, by decide, rfl⟩ ⟨h4, by decide, rfl⟩ h7)

/-- A wrong argument of a command on the last line. -/
theorem last_error {A : List Str} {cx : Ctx} {b : Option Inner} {used : List Str} {ea : Ast.ExArg} {r2 ra : List Cell}
    {used' : List Str} {p : Str} {q : Pos} (hl : afterBackslash (p ++ l) = none)
    (h : Front nv (mkEnv (A ++ [p ++ l])) fn cx b used (behind A [p ++ l])) (hp : ∀ m', ¬ Misplaced cx b c.name m')
    (h1 : CmdHead nv (mkEnv [p ++ l]) fn used (lineAt [] (p ++ l)) (lineAt [] (p ++ l)) ea c ra r2 used')
    (h2 : ArgErr (mkEnv [p ++ l]) fn c ea.usefilter ra r2 msg (movePos p q)) :
    errorBehind nv fn A p l q.i q.lnum q.col msg := by
  obtain ⟨rc, h3⟩ := head_at h1
  have hl' : ∀ l', [p ++ l].head? = some l' → afterBackslash l' = none := by rintro _ ⟨⟩; exact hl
  have h4 := lineErr_mv (moverB fn A hl') (Names.refl used) (.args h3 hp h2)
  rw [← cut_buf, Mover.map] at h4
  refine (C54_lines nv fn _ none fn _ _ _ msg).2 ⟨rfl, rfl, (moverB fn A hl').mp (movePos p q), ?_, rfl, rfl, .line h h4⟩
  rw [readLen_eq]
  rfl

/-- C71.  The same for `:return` in a function. -/
theorem C71_return {g k : Str} {f : Cmd} (hf : f.name = cs!"function") (ht2 : TableCmd nv k f) (hc : c.name = cs!"return")
    (ht : TableCmd nv n c) (hg : PlainName g)
    (hg2 : ∃ x t, g = x :: t ∧ (x = '_' ∨ isupper x = true ∨ ':' ∈ g ∨ '#' ∈ g))
    (h : parseExprLines [l] = some ⟨none, some (.parse [] off line col msg)⟩)
    (hw : ∃ x s, l = x :: s ∧ iswhite x = false ∧ x ≠ '|') :
    errorBehind nv fn [k ++ ' ' :: (g ++ cs!"()")] (n ++ [' ']) l off line col msg := by
  obtain ⟨m, q, e, h1⟩ := (C53_lines ..).1 h
  cases e
  obtain ⟨x, s, rfl, hx, hb⟩ := hw
  have hw : ∀ y, (x :: s).head? = some y → iswhite y = false := by rintro _ ⟨⟩; exact hx
  have hc' : c.name ∈ wordCmds := by rw [hc]; decide
  have hf' : f.name ∈ wordCmds := by rw [hf]; decide
  have e1 : n ++ ' ' :: x :: s = n ++ [' '] ++ x :: s := by simp
  have hl := word_noCont ht hc' (s := ' ' :: x :: s)
  rw [e1] at hl
  have hB : NoCont [n ++ [' '] ++ x :: s] := by rintro _ ⟨⟩; exact hl
  obtain ⟨u1, h4⟩ := opens_first (B := [n ++ [' '] ++ x :: s]) hB (low_of (by decide)) Carry.argFunc rfl
    (func_line (fn := fn) hf ht2 hg hg2)
  have h5 := line_head (mkEnv [n ++ ' ' :: x :: s]) fn u1 hc' ht hw
  rw [e1] at h5
  have h6 := gErr_behind (fn := fn) (n ++ [' ']) h1
  have ne : ¬ (AtEnd (lineAt (n ++ [' ']) (x :: s)) ∨ headSym (lineAt (n ++ [' ']) (x :: s)) = .ch '|') := by
    rintro ((e | e) | e)
    · cases e
    · cases e
    · cases e
      exact hb rfl
  refine last_error hl (.function .start h4) ?_ h5 (.return_ hc (skip_cut hw) ne h6)
  intro m h
  rw [hc] at h
  cases h with
  | return_ h => cases h

/-- C71.  The same for `:elseif`. -/
theorem C71_elseif {e : Ast.Expr} {k v : Str} {f : Cmd} (hf : f.name = cs!"if") (ht2 : TableCmd nv k f)
    (hv : Phrase v e) (hv2 : ∀ x, v.head? = some x → iswhite x = false) (hc : c.name = cs!"elseif") (ht : TableCmd nv n c)
    (h : parseExprLines [l] = some ⟨none, some (.parse [] off line col msg)⟩)
    (hw : ∀ x, l.head? = some x → iswhite x = false) :
    errorBehind nv fn [k ++ ' ' :: v] (n ++ [' ']) l off line col msg := by
  obtain ⟨m, q, e, h1⟩ := (C53_lines ..).1 h
  cases e
  have hc' : c.name ∈ wordCmds := by rw [hc]; decide
  have e1 : n ++ ' ' :: l = n ++ [' '] ++ l := by simp
  have hl := word_noCont ht hc' (s := ' ' :: l)
  rw [e1] at hl
  have hB : NoCont [n ++ [' '] ++ l] := by rintro _ ⟨⟩; exact hl
  obtain ⟨u1, h4⟩ := opens_first (B := [n ++ [' '] ++ l]) hB (low_of (by decide)) Carry.argGram (expr_id _)
    (opens_line (fn := fn) (used := []) hf (by decide) ht2 hv hv2)
  have h5 := line_head (mkEnv [n ++ ' ' :: l]) fn u1 hc' ht hw
  rw [e1] at h5
  have h6 := gErr_behind (fn := fn) (n ++ [' ']) h1
  refine last_error hl (.if_ .start h4) ?_ h5 (.expr (by simp [hc]) h6)
  intro m h
  rw [hc] at h
  cases h with
  | elseif h => exact h (.inl rfl)

/-! Examples -/

-- `1 +` alone and in commands
example : errorAt false cs!"a.vim" cs!"exe " cs!"1 +" 3 1 4 cs!"unexpected token: <EOL>" ∧
    errorAt false cs!"a.vim" cs!"wh " cs!"1 +" 3 1 4 cs!"unexpected token: <EOL>" := by
  have h : parseExprLines [cs!"1 +"] = some ⟨none, some (.parse [] 3 1 4 cs!"unexpected token: <EOL>")⟩ := by rfl
  obtain ⟨c, h1, h2⟩ := cmd_of (nv := false) (n := cs!"exe") (x := cs!"execute") (by decide +kernel)
  obtain ⟨d, h3, h4⟩ := cmd_of (nv := false) (n := cs!"wh") (x := cs!"while") (by decide +kernel)
  have e1 := C71_command (fn := cs!"a.vim") (by rw [h1]; decide) h2 h ⟨'1', cs!" +", rfl, by decide, by decide, fun h => absurd h (by decide)⟩
  have e2 := C71_command (fn := cs!"a.vim") (by rw [h3]; decide) h4 h ⟨'1', cs!" +", rfl, by decide, by decide, fun h => absurd h (by decide)⟩
  exact ⟨e1, e2⟩

-- `let g:x ..= ["é", `: the position counts bytes for the column and characters for the offset
example : errorAt true [] cs!"let g:x ..= " cs!"[\"é\", " 6 1 8 cs!"unexpected token: <EOL>" := by
  have h : parseExprLines [cs!"[\"é\", "] = some ⟨none, some (.parse [] 6 1 8 cs!"unexpected token: <EOL>")⟩ := by rfl
  obtain ⟨c, h1, h2⟩ := cmd_of (nv := true) (n := cs!"let") (x := cs!"let") (by decide +kernel)
  have := C71_let (fn := []) (v := cs!"g:x") (op := cs!"..=") h1 h2
    (.inr ⟨cs!"g:", 'x', [], rfl, .inr ⟨'g', rfl, by decide⟩, by decide, by simp⟩) (by simp [isWord]) (by decide) h
  exact this

-- `const`, `for`, `return` and `elseif`
example : errorAt false [] cs!"const x = " cs!"a[" 2 1 3 cs!"unexpected token: <EOL>" ∧
    errorAt false [] cs!"for x in " cs!"a[" 2 1 3 cs!"unexpected token: <EOL>" ∧
    errorBehind false [] [cs!"fu p#g()"] cs!"retu " cs!"a[" 2 1 3 cs!"unexpected token: <EOL>" ∧
    errorBehind false [] [cs!"if 1"] cs!"elsei " cs!"a[" 2 1 3 cs!"unexpected token: <EOL>" := by
  have h : parseExprLines [cs!"a["] = some ⟨none, some (.parse [] 2 1 3 cs!"unexpected token: <EOL>")⟩ := by rfl
  have hx : VarName cs!"x" := .inr ⟨[], 'x', [], rfl, .inl rfl, by decide, by simp⟩
  obtain ⟨c1, n1, t1⟩ := cmd_of (nv := false) (n := cs!"const") (x := cs!"const") (by decide +kernel)
  obtain ⟨c2, n2, t2⟩ := cmd_of (nv := false) (n := cs!"for") (x := cs!"for") (by decide +kernel)
  obtain ⟨c3, n3, t3⟩ := cmd_of (nv := false) (n := cs!"fu") (x := cs!"function") (by decide +kernel)
  obtain ⟨c4, n4, t4⟩ := cmd_of (nv := false) (n := cs!"retu") (x := cs!"return") (by decide +kernel)
  obtain ⟨c5, n5, t5⟩ := cmd_of (nv := false) (n := cs!"if") (x := cs!"if") (by decide +kernel)
  obtain ⟨c6, n6, t6⟩ := cmd_of (nv := false) (n := cs!"elsei") (x := cs!"elseif") (by decide +kernel)
  obtain ⟨e, h7⟩ := phrase_of_run (l := cs!"1") (w := []) (by decide +kernel) (by simp)
  have e1 := C71_const (fn := []) n1 t1 hx (by simp [isWord]) h
  have e2 := C71_for (fn := []) n2 t2 hx (by simp [isWord]) h
  have e3 := C71_return (fn := []) (g := cs!"p#g") n3 t3 n4 t4 ⟨⟨'p', cs!"#g", rfl, by decide, by decide⟩, by simp [isWord]⟩
    ⟨'p', cs!"#g", rfl, by decide⟩ h ⟨'a', cs!"[", rfl, by decide, by decide⟩
  have e4 := C71_elseif (fn := []) n5 t5 h7 (by rintro _ ⟨⟩; decide) n6 t6 h (by rintro _ ⟨⟩; decide)
  exact ⟨e1, e2, e3, e4⟩

end Props
end Viml
