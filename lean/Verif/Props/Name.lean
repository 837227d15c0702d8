/-
C81: the name of a file is only a label.
-/
import Verif.Props.Relabel

namespace Viml.Spec

/-- The position in a file of another name. -/
def named (fn : Str) (q : Ast.Pos) : Ast.Pos := { q with filename := fn }

/-- The error in a file of another name. -/
def errNamed (fn : Str) : ApiErr → ApiErr
  | .parse _ off line col msg => .parse fn off line col msg
  | .other => .other

/-- The result for a file of another name. -/
def resNamed (fn : Str) (r : ApiRes Ast.File) : ApiRes Ast.File := ⟨r.node.map (·.onPos (named fn)), r.err.map (errNamed fn)⟩

/-- Reports that differ in the names of files only. -/
inductive SameReport : Cmdline.Report → Cmdline.Report → Prop
  | open_ {m n} : SameReport (.open_ m) (.open_ n)
  | parse {e fn} : SameReport (.parse e) (.parse (errNamed fn e))
  | write {m n} : SameReport (.write m) (.write n)

/-- Lists of such reports. -/
inductive SameReports : List Cmdline.Report → List Cmdline.Report → Prop
  | nil : SameReports [] []
  | cons {e e' es es'} : SameReport e e' → SameReports es es' → SameReports (e :: es) (e' :: es')

end Viml.Spec

namespace Viml.Props
open Spec

/-- The relabelling that changes nothing. -/
def sameLab : Relab := ⟨id, fun _ => rfl, rfl⟩

theorem sameLab_cells (l : List Cell) : lab sameLab l = l := (List.map_congr_left fun _ _ => rfl).trans (List.map_id l)

theorem sameLab_env (env : Env) : lab sameLab env = env := by
  show Env.mk (lab sameLab env.buf) env.eof = env
  rw [sameLab_cells]

/-- C81 for `ParseFile`: with another file name the result has that name in its positions or its error and is the same otherwise. -/
theorem C81_lines (nv : Bool) (fn fn' : Str) (lines : List Str) :
    parseFileLines nv fn' lines = (parseFileLines nv fn lines).map (resNamed fn') := by
  have e := toplevel_lab (φ := sameLab) nv (mkEnv lines) (mkEnv lines).buf
  rw [sameLab_env, sameLab_cells] at e
  have hx : Exports sameLab fn fn' (named fn') := fun _ => rfl
  unfold parseFileLines
  simp only []
  cases h : (parseToplevel nv).run (mkEnv lines) (mkEnv lines).buf with
  | fail e => cases e <;> rfl
  | ok f r =>
    rw [h] at e
    have hf : f = lab sameLab f := (Res.ok.inj e).1
    dsimp only
    have := export_file hx f
    rw [← hf] at this
    rw [this]
    cases Export.file fn f <;> rfl

/-- C81 for `ParseFile` on bytes. -/
theorem C81_file (nv : Bool) (fn fn' : Str) (src : List UInt8) : parseFile nv fn' src = (parseFile nv fn src).map (resNamed fn') :=
  C81_lines nv fn fn' _

/-- Accepted, and the positions with the other name. -/
example : (parseFileLines false cs!"a.vim" [cs!"call f()"]).map (fun r => r.node.map fun f => f.start.filename) = some (some cs!"a.vim") := by
  decide +kernel
example : (parseFileLines false cs!"b.vim" [cs!"call f()"]).map (fun r => r.node.map fun f => f.start.filename) = some (some cs!"b.vim") := by
  rw [C81_lines false cs!"a.vim"]
  decide +kernel
/-- Rejected, and the error with the other name. -/
example : (parseFileLines false cs!"b.vim" [cs!"call f("]).bind (·.err) =
    ((parseFileLines false cs!"a.vim" [cs!"call f("]).bind (·.err)).map (errNamed cs!"b.vim") ∧
    ((parseFileLines false cs!"a.vim" [cs!"call f("]).bind (·.err)).isSome = true := by decide +kernel

/-- What one input of the command gives, with two names. -/
inductive SameRes : Cmdline.FileRes → Cmdline.FileRes → Prop
  | ok {s} : SameRes (.ok s) (.ok s)
  | failed {e e'} : SameReport e e' → SameRes (.failed e) (.failed e')
  | panicked : SameRes .panicked .panicked

theorem cmdline_named (nv : Bool) (m n : Str) (src : List UInt8) :
    SameRes (Cmdline.parseFile none nv m src) (Cmdline.parseFile none nv n src) := by
  unfold Cmdline.parseFile
  rw [C81_file nv m n src]
  cases parseFile nv m src with
  | none => exact .panicked
  | some r =>
    obtain ⟨f, e⟩ := r
    cases e with
    | some e => exact .failed .parse
    | none =>
      cases f with
      | none => exact .panicked
      | some f =>
        show SameRes (match Comp.compileFile f with | .text s => .ok s | .err => .failed (.write m) | .panic => .panicked)
          (match Comp.compileFile (f.onPos (named n)) with | .text s => .ok s | .err => .failed (.write n) | .panic => .panicked)
        rw [C57_compile_file]
        cases Comp.compileFile f with
        | text s => exact .ok
        | err => exact .failed .write
        | panic => exact .panicked

theorem report_refl (e : Cmdline.Report) : SameReport e e := by
  cases e with
  | open_ => exact .open_
  | parse e =>
    cases e with
    | parse fn off l c m => exact .parse (fn := fn)
    | other => exact .parse (fn := [])
  | write => exact .write

theorem reports_refl : ∀ es : List Cmdline.Report, SameReports es es
  | [] => .nil
  | e :: es => .cons (report_refl e) (reports_refl es)

theorem reports_append {es es' : List Cmdline.Report} {e e' : Cmdline.Report} (h : SameReports es es') (he : SameReport e e') :
    SameReports (es ++ [e]) (es' ++ [e']) := by
  induction h with
  | nil => exact .cons he .nil
  | cons h _ ih => exact .cons h ih

theorem files_named (nv : Bool) : ∀ (as bs : List Cmdline.Arg) (i : Nat) (st st' : Cmdline.Proc),
    as.map (·.content) = bs.map (·.content) → st.out = st'.out → st.exit = st'.exit → st.usage = st'.usage →
    SameReports st.errors st'.errors →
    (Cmdline.files none nv i as st).out = (Cmdline.files none nv i bs st').out ∧
    (Cmdline.files none nv i as st).exit = (Cmdline.files none nv i bs st').exit ∧
    (Cmdline.files none nv i as st).usage = (Cmdline.files none nv i bs st').usage ∧
    SameReports (Cmdline.files none nv i as st).errors (Cmdline.files none nv i bs st').errors
  | [], [], i, st, st', _, h1, h2, h3, h4 => ⟨h1, h2, h3, h4⟩
  | [], b :: bs, _, _, _, h, _, _, _, _ => by cases h
  | a :: as, [], _, _, _, h, _, _, _, _ => by cases h
  | ⟨m, c⟩ :: as, ⟨n, c'⟩ :: bs, i, st, st', h, h1, h2, h3, h4 => by
    obtain ⟨hc, hs⟩ := List.cons.inj h
    cases hc
    have snoc : ∀ {r r'}, SameReport r r' → SameReports (st.errors ++ [r]) (st'.errors ++ [r']) := by
      intro r r' hr
      exact reports_append h4 hr
    cases c with
    | none => exact files_named nv as bs (i + 1) _ _ hs h1 rfl (by show (st.usage || _) = _; rw [h3]) (snoc .open_)
    | some src =>
      simp only [Cmdline.files]
      have := cmdline_named nv m n src
      generalize Cmdline.parseFile none nv m src = x at this
      generalize Cmdline.parseFile none nv n src = y at this
      cases this with
      | ok => exact files_named nv as bs (i + 1) _ _ hs (by show st.out ++ _ = _; rw [h1]) h2 h3 h4
      | failed hr => exact files_named nv as bs (i + 1) _ _ hs h1 rfl h3 (snoc hr)
      | panicked => exact ⟨h1, rfl, h3, h4⟩

/-- C81 for the command: if the files have other names but the same contents, it prints the same, exits with the same status,
and reports the same errors but for the names. -/
theorem C81_command (nv : Bool) (as bs : List Cmdline.Arg) (stdin : List UInt8) (h : as.map (·.content) = bs.map (·.content)) :
    (Cmdline.main none nv as stdin).out = (Cmdline.main none nv bs stdin).out ∧
    (Cmdline.main none nv as stdin).exit = (Cmdline.main none nv bs stdin).exit ∧
    (Cmdline.main none nv as stdin).usage = (Cmdline.main none nv bs stdin).usage ∧
    SameReports (Cmdline.main none nv as stdin).errors (Cmdline.main none nv bs stdin).errors := by
  cases as with
  | nil =>
    cases bs with
    | cons b bs => cases h
    | nil =>
      refine ⟨rfl, rfl, rfl, ?_⟩
      exact reports_refl _
  | cons a as =>
    cases bs with
    | nil => cases h
    | cons b bs => exact files_named nv (a :: as) (b :: bs) 0 {} {} h rfl rfl rfl .nil

/-- Two files, the second one wrong: the same output, and an error with the other name. -/
example : (Cmdline.main none false [⟨cs!"a", some [101, 99, 104, 111, 32, 49]⟩, ⟨cs!"b", some [41]⟩] []).errors.length = 1 ∧
    (Cmdline.main none false [⟨cs!"c", some [101, 99, 104, 111, 32, 49]⟩, ⟨cs!"d", some [41]⟩] []).out = cs!"(echo 1)\n" := by decide +kernel

/-- C81: the standard input is treated as a file. -/
theorem C81_stdin (nv : Bool) (name : Str) (src other : List UInt8) :
    (Cmdline.main none nv [] src).out = (Cmdline.main none nv [⟨name, some src⟩] other).out ∧
    (Cmdline.main none nv [] src).exit = (Cmdline.main none nv [⟨name, some src⟩] other).exit ∧
    (Cmdline.main none nv [] src).usage = (Cmdline.main none nv [⟨name, some src⟩] other).usage ∧
    SameReports (Cmdline.main none nv [] src).errors (Cmdline.main none nv [⟨name, some src⟩] other).errors := by
  have := cmdline_named nv [] name src
  simp only [Cmdline.main, Cmdline.files, List.isEmpty_nil, List.isEmpty_cons, if_true]
  generalize Cmdline.parseFile none nv [] src = x at this
  generalize Cmdline.parseFile none nv name src = y at this
  cases this with
  | ok => exact ⟨rfl, rfl, rfl, .nil⟩
  | failed hr => exact ⟨rfl, rfl, rfl, .cons hr .nil⟩
  | panicked => exact ⟨rfl, rfl, rfl, .nil⟩

end Viml.Props
