/-
A line of a file, from the line alone.
-/
import Verif.Lemmas.Holder
import Verif.Lemmas.Cut
import Verif.Lemmas.CarryBlock
import Verif.Props.File

namespace Viml
open Spec

variable {nv : Bool} {fn l n : Str} {A B : List Str}

/-- The lines `B` behind the lines `A`. -/
def behind (A B : List Str) : List Cell := (mkEnv B).buf.map (moveCell A B (mkEnv A).buf.length)

/-- No continuation line at the start. -/
def NoCont (B : List Str) : Prop := ∀ l, B.head? = some l → afterBackslash l = none

theorem behind_cons (hl : afterBackslash l = none) (hB : NoCont B) :
    behind A (l :: B) = (mkEnv [l]).buf.map (moveCell A [l] (mkEnv A).buf.length) ++ behind (A ++ [l]) B := by
  have h1 := mkEnv_append (A := A) (B := l :: B) (by rintro _ ⟨⟩; exact hl)
  have h2 := mkEnv_append (A := A ++ [l]) (B := B) hB
  have h3 := mkEnv_append (A := A) (B := [l]) (by rintro _ ⟨⟩; exact hl)
  rw [show A ++ l :: B = A ++ [l] ++ B by simp, h2, h3, List.append_assoc] at h1
  unfold behind
  rw [h3]
  exact (List.append_cancel_left h1).symm

/-- The line `l`, alone and behind `A`. -/
def lineIn (fn : Str) (A : List Str) (l : Str) (B : List Str) : Carry (mkEnv [l]) (mkEnv (A ++ l :: B)) fn where
  q0 := []
  q := behind (A ++ [l]) B
  f := moveCell A [l] (mkEnv A).buf.length
  m := shift A [l]
  bd := False
  char _ := rfl
  pos _ := rfl
  eof h := h.elim

/-- The first line. -/
def lineFirst (fn : Str) (l : Str) (B : List Str) : Carry (mkEnv [l]) (mkEnv (l :: B)) fn where
  q0 := []
  q := behind [l] B
  f := id
  m := id
  bd := False
  char _ := rfl
  pos _ := rfl
  eof h := h.elim

theorem in_lineAt {env env' : Env} (κ : Carry env env' fn) (h : κ.q0 = []) : ∀ u v : Str, κ.In (lineAt u v)
  | u, [] => by rw [lineAt, ← h]; exact .eol rfl
  | u, c :: v => by rw [lineAt]; exact .cons (in_lineAt κ h _ v)

theorem in_reads {env env' : Env} (κ : Carry env env' fn) (h : κ.q0 = []) {u : Str} : ∀ {w : Str} {r : List Cell},
    Reads r w (lineAt u []) → κ.In r
  | [], r, hr => by cases hr.nil_inv; exact in_lineAt κ h _ _
  | c :: w, r, hr => by
    obtain ⟨q, r1, rfl, hr1⟩ := hr.cons_inv
    exact .cons (in_reads κ h hr1)

theorem lineIn_tr (hl : afterBackslash l = none) (hB : NoCont B) : (lineIn fn A l B).tr (lineAt [] l) = behind A (l :: B) := by
  rw [← cut_buf, behind_cons hl hB]
  simp [Carry.tr, lineIn]

theorem lineFirst_tr (hB : NoCont B) : (lineFirst fn l B).tr (lineAt [] l) = (mkEnv (l :: B)).buf := by
  have := mkEnv_append (A := [l]) hB
  rw [← cut_buf]
  refine Eq.trans ?_ this.symm
  simp [Carry.tr, lineFirst, behind]

variable {α : Type} {F F' : List Cell → α → List Cell → Prop} {g : α → α} {ea : Ast.ExArg} {a : α} {used used' : List Str}
  {c : Cmd}

theorem tr_first : (lineFirst fn l B).tr [] = behind [l] B := by simp [Carry.tr, lineFirst]
theorem tr_in : (lineIn fn A l B).tr [] = behind (A ++ [l]) B := by simp [Carry.tr, lineIn]

/-- The first line of a file opens a block. -/
theorem opens_first (hB : NoCont B) (hl : Low n) (hA : Carry.Argument (lineFirst fn l B) F F' g) (hg : g a = a)
    (h : Spec.Opens nv (mkEnv [l]) fn n F used (lineAt [] l) ea a [] used' []) :
    ∃ used', Spec.Opens nv (mkEnv (l :: B)) fn n F' used (mkEnv (l :: B)).buf ea a [] used' (behind [l] B) := by
  obtain ⟨_, u, _, h3⟩ := Carry.opens (U := []) (usedX := used) (by simp) hl hA (in_lineAt _ rfl [] l) h (fun x => by simp)
  rw [lineFirst_tr hB, hg, show ea.onPos (lineFirst fn l B).m = ea from exArg_id ea, tr_first] at h3
  exact ⟨u, h3⟩

/-- Another line opens a block. -/
theorem opens_in (hB : NoCont B) (hl : afterBackslash l = none) (hn : Low n)
    (hA : Carry.Argument (lineIn fn A l B) F F' g)
    (h : Spec.Opens nv (mkEnv [l]) fn n F used (lineAt [] l) ea a [] used' []) :
    ∃ used', Spec.Opens nv (mkEnv (A ++ l :: B)) fn n F' used (behind A (l :: B)) (ea.onPos (shift A [l])) (g a) [] used'
      (behind (A ++ [l]) B) := by
  obtain ⟨_, u, _, h3⟩ := Carry.opens (U := []) (usedX := used) (by simp) hn hA (in_lineAt _ rfl [] l) h (fun x => by simp)
  rw [lineIn_tr hl hB, tr_in] at h3
  exact ⟨u, h3⟩

/-- A statement on a line. -/
theorem simple_in {cx : Ctx} {u w : Str} {r2 ra r3 : List Cell} {xs : List Ast.Stmt} (hB : NoCont B) (hl : afterBackslash l = none)
    (hn : Low c.name) (h1 : CmdHead nv (mkEnv [l]) fn used (lineAt [] l) (lineAt [] l) ea c ra r2 used')
    (h2 : Spec.Simple (mkEnv [l]) fn cx (lineAt [] l) ra ea c r2 xs r3) (h3 : Reads r3 w (lineAt u []))
    (hw : ∀ c ∈ w, iswhite c = true) :
    ∃ used', Body nv (mkEnv (A ++ l :: B)) fn cx used (behind A (l :: B)) (Ast.Stmt.onPosL (shift A [l]) xs) used'
      (behind (A ++ [l]) B) := by
  obtain ⟨i0, ia, i2, us, _, a1⟩ := Carry.cmdHead (U := []) (usedX := used) (in_lineAt (lineIn fn A l B) rfl [] l) (fun x => by simp)
    (Carry.free_low (by simp) hn) h1
  have h4 := in_reads (lineIn fn A l B) rfl h3
  have a2 := Carry.simple i0 ia i2 h4 h2
  have a3 := (Carry.trail h4 (trail_last h3 hw)).2
  rw [lineIn_tr hl hB] at a1 a2
  rw [tr_in] at a3
  have : Body nv (mkEnv (A ++ l :: B)) fn cx used (behind A (l :: B)) ([] ++ Ast.Stmt.onPosL (shift A [l]) xs ++ []) us
      (behind (A ++ [l]) B) := .simple .nil a1 a2 a3
  exact ⟨us, by simpa using this⟩

/-- A statement on the first line. -/
theorem simple_first {cx : Ctx} {u w : Str} {r2 ra r3 : List Cell} {xs : List Ast.Stmt} (hB : NoCont B)
    (hn : Low c.name) (h1 : CmdHead nv (mkEnv [l]) fn used (lineAt [] l) (lineAt [] l) ea c ra r2 used')
    (h2 : Spec.Simple (mkEnv [l]) fn cx (lineAt [] l) ra ea c r2 xs r3) (h3 : Reads r3 w (lineAt u []))
    (hw : ∀ c ∈ w, iswhite c = true) :
    ∃ used', Body nv (mkEnv (l :: B)) fn cx used (mkEnv (l :: B)).buf xs used' (behind [l] B) := by
  obtain ⟨i0, ia, i2, us, _, a1⟩ := Carry.cmdHead (U := []) (usedX := used) (in_lineAt (lineFirst fn l B) rfl [] l) (fun x => by simp)
    (Carry.free_low (by simp) hn) h1
  have h4 := in_reads (lineFirst fn l B) rfl h3
  have a2 := Carry.simple i0 ia i2 h4 h2
  have a3 := (Carry.trail h4 (trail_last h3 hw)).2
  rw [lineFirst_tr hB] at a1 a2
  rw [tr_first] at a3
  have := Body.simple (ss := []) .nil a1 a2 a3
  refine ⟨us, ?_⟩
  rw [show Ast.Stmt.onPosL (lineFirst fn l B).m xs = xs from stmtL_id xs] at this
  simpa [Ast.Stmt.onPosL] using this

theorem low_word (h : c.name ∈ wordCmds) : Low c.name := by
  simp only [wordCmds, exprCmds, List.cons_append, List.nil_append, List.mem_cons, List.not_mem_nil, or_false] at h
  rcases h with h | h | h | h | h | h | h | h | h | h | h | h | h | h | h | h | h | h | h | h <;> rw [h] <;> exact low_of (by decide)

/-- The command `m` closes a block on the last line. -/
theorem closes_last {d : Cmd} {m : Str} {used : List Str} (hc : d.name ∈ wordCmds) (hd : TableCmd nv m d)
    (hl : afterBackslash m = none) :
    ∃ used' r', Closes nv (mkEnv (A ++ [m])) fn d.name used (behind A [m])
      (endAt fn A m d) used' r' ∧
      Trail (mkEnv (A ++ [m])) fn r' [] [] := by
  have hr := cut_reads m [] []
  rw [List.append_nil, List.nil_append] at hr
  have h := word_head (env := mkEnv [m]) (fn := fn) (used := used) hc hd (l := []) (r := lineAt [] m) (by
    rw [List.append_nil]; exact lineIs_at [] m) hr (skip_cut (by simp)) (.inl rfl)
  rw [here_cut, here_cut] at h
  have hlow := low_word hc
  obtain ⟨i0, ia, i1, u, _, a1⟩ := Carry.cmdHead (U := []) (usedX := used) (in_lineAt (lineIn fn A m []) rfl [] m) (fun x => by simp)
    (Carry.free_low (by simp) hlow) h
  have a3 := (Carry.trail i1 (trail_last (env := mkEnv [m]) (fn := fn) (Reads.nil _) (by simp))).2
  rw [tr_in] at a3
  rw [lineIn_tr hl (by simp [NoCont])] at a1
  refine ⟨u, _, ⟨_, _, _, _, _, rfl, a1, rfl, ?_⟩, by simpa [behind, mkEnv, buildCells, reindex, Ast.Stmt.onPosL] using a3⟩
  split
  · refine ⟨[], (Carry.rest i1 ⟨Reads.nil _, ?_⟩).2⟩
    exact .inl rfl
  · rfl

/-- The word `in` is a token. -/
theorem in_lex {env : Env} {u b : Str} : ∃ t r2, Lex env (lineAt u (' ' :: (cs!"in" ++ ' ' :: b))) t r2 := by
  have := mark_cut (env := env) (u := u) (w := [' ']) (v := cs!"in") (b := ' ' :: b) (ty := .identifier) (by decide)
    (.ident 'i' ['n'] _ (by decide) (by decide) (by rfl) (by simp [isWord]))
  exact ⟨_, _, this⟩

/-- The name of a function that is defined without parameters. -/
theorem func_name {env : Env} {u f : Str} (hf : PlainName f) (ho : FuncNameOK (.ident ⟨here env fn (lineAt u (f ++ cs!"()")), f⟩)) :
    FuncArgs env fn (lineAt u (f ++ cs!"()")) (.ident ⟨posAt fn (bytes u), f⟩, [], [], ⟨false, false, false, false⟩)
      (lineAt (u ++ f ++ cs!"()") []) := by
  obtain ⟨⟨c, s, rfl, h2, h3⟩, hw⟩ := hf
  have hc : isnamec c = true := by
    simp only [iswordc1, Bool.or_eq_true] at h2
    simp only [isnamec, iswordc, isalnum, Bool.or_eq_true]
    rcases h2 with h2 | h2 <;> simp [h2]
  have hr := cut_reads (c :: s) u cs!"()"
  have h1 : headSym (lineAt (u ++ c :: s) cs!"()") = .ch '(' := rfl
  have lx : Lex env (lineAt u (c :: s ++ cs!"()")) ⟨.identifier, c :: s, posOf env (lineAt u (c :: s ++ cs!"()"))⟩
      (lineAt (u ++ c :: s) cs!"()") :=
    .text [] _ _ .identifier (c :: s) _ (Reads.nil _) (by simp) hr (.ident c s _ h2 h3 (by rw [h1]; decide) hw)
  have parts : NameParts env fn (lineAt u (c :: s ++ cs!"()"))
      [.curlyNameLit (pubPos fn (posOf env (lineAt u (c :: s ++ cs!"()")))) (c :: s)] (lineAt (u ++ c :: s) cs!"()") := by
    refine .text hr ⟨by simp, ?_⟩ (by rw [h1]; decide) (.nil (by rw [h1]; decide) (by simp [h1]))
    intro x hx
    rcases List.mem_cons.1 hx with rfl | hx
    · exact hc
    · exact h3 x hx
  have ev := mark_cut (env := env) (u := u ++ c :: s) (w := []) (v := ['(']) (b := [')']) (by simp) (.popen _)
  have hp : FuncName env fn (lineAt u (c :: s ++ cs!"()")) (.ident ⟨posAt fn (bytes u), c :: s⟩) (lineAt (u ++ c :: s) cs!"()") := by
    have hpos := here_cut env fn u (c :: s ++ cs!"()")
    refine ⟨⟨?_, _, _, ev, by simp⟩, trivial⟩
    have := LvStart.name (env := env) (fn := fn) (r := lineAt u (c :: s ++ cs!"()")) ⟨[], Reads.nil _, by simp⟩ ⟨_, _, lx, .inl rfl⟩ parts (by simp)
    rw [hpos] at this
    exact .start this
  have hns : ∀ y ∈ cs!"|\"/", iswordc1 y = false := by decide
  have hb : iswhite c = false := white_of (f := iswordc1) (by decide) h2
  have e2 := cut_reads ['('] (u ++ c :: s) [')']
  have e3 := mark_cut (env := env) (u := u ++ c :: s ++ ['(']) (w := []) (v := [')']) (b := []) (by simp) (.pclose _)
  have := FuncHead.mk (env := env) (fn := fn) (r := lineAt u (c :: s ++ cs!"()")) (skip_cut (by rintro _ ⟨⟩; exact hb)) ?_ ?_ hp ?_
    (skip_cut (by rintro _ ⟨⟩; decide)) e2 (.none ⟨_, e3, rfl, rfl⟩) (.nil (skip_cut (by simp)) rfl)
  · simpa [FuncArgs, attrsOf] using this
  · rintro ((e | e) | e | e) <;> cases e
    · exact absurd h2 (by decide)
    · exact absurd h2 (by decide)
  · intro e
    cases e
    exact absurd h2 (by decide)
  · rw [here_cut] at ho
    exact ho

/-- The line of a comment without text behind others. -/
theorem behind_comment (l : Str) : ∃ p q, behind [l] [commentLine] = [⟨some '"', p⟩, ⟨none, q⟩] ∧
    pubPos fn p = ⟨(fileBytes [l]).length, 2, 1, fn⟩ := by
  refine ⟨_, _, rfl, ?_⟩
  simp [pubPos, onContLine]

/-- A line of one statement is a whole script. -/
theorem line_complete {u w : Str} {r2 ra r3 : List Cell} {xs : List Ast.Stmt} (hn : Low c.name)
    (h1 : CmdHead nv (mkEnv [l]) fn [] (lineAt [] l) (lineAt [] l) ea c ra r2 used')
    (h2 : Spec.Simple (mkEnv [l]) fn { top := true } (lineAt [] l) ra ea c r2 xs r3) (h3 : Reads r3 w (lineAt u []))
    (hw : ∀ c ∈ w, iswhite c = true) : Complete nv fn [l] ⟨posAt fn 0, xs⟩ := by
  obtain ⟨us, h⟩ := simple_first (B := [commentLine]) (by rintro _ ⟨⟩; rfl) hn h1 h2 h3 hw
  obtain ⟨p, q, e1, e2⟩ := behind_comment (fn := fn) l
  refine (Props.C52_lines ..).2 ⟨us, ?_, ?_⟩
  · show Body nv (mkEnv [l, commentLine]) fn { top := true } [] (mkEnv [l, commentLine]).buf
      (xs ++ [.comment ⟨(fileBytes [l]).length, 2, 1, fn⟩ []]) us []
    rw [← e2]
    refine .comment h (r2 := behind [l] [commentLine]) ?_ ?_
    · rw [e1]
      exact ⟨[], ⟨[], rfl, rfl⟩, by simp, rfl⟩
    · rw [e1]
      exact .mk (r1 := [⟨none, q⟩]) ⟨[_], rfl, rfl⟩ ⟨[], rfl, rfl⟩ rfl
  · rw [show [l] ++ [commentLine] = l :: [commentLine] from rfl, ← lineFirst_tr (fn := fn) (by rintro _ ⟨⟩; rfl)]
    cases l <;> rfl

end Viml
