/-
Properties of `ParseFile` and of the command parser: C05-C08, C12, C13, C18-C21, C23, C24, C26, C41, C42,
C45 and C47-C50.  `parseFile nv fn src` is `ParseFile` with the bytes `src`, the file name `fn` and the
neovim option `nv`; `parseFileLines` is the same after the input was split into lines and decoded.
-/
import Verif.Lemmas.ApiFile
import Verif.Lemmas.Mods

namespace Viml.Props
open Viml Viml.Spec

/-! ### C05-C08: results, errors and positions -/

/-- C05.  `ParseFile` always returns, with exactly one of file and error. -/
theorem C05_parseFile (nv : Bool) (fn : Str) (src : List UInt8) :
    ∃ res, parseFile nv fn src = some res ∧ (res.node.isSome ↔ res.err = none) := by
  unfold parseFile
  rcases parseFileLines_good nv fn ((readlines src).map decodeUtf8) with ⟨f, h, _⟩ | ⟨msg, q, h, _⟩ | ⟨h, _⟩
  · exact ⟨_, h, by simp⟩
  · exact ⟨_, h, by simp⟩
  · exact ⟨_, h, by simp⟩

/-- The number `n` or a longer one stands in the line `l`. -/
def HasNumber (l : Str) (n : Nat) : Prop := ∃ d, d <:+: l ∧ (∀ c ∈ d, isdigit c = true) ∧ n ≤ decVal d

/-- C06.  Every rejection of a file is an `ErrVimlParser`, unless the file contains a number of at least
2^31; then it may be another error (exactly when is `C06_other` in `Props/NumError.lean`). -/
theorem C06_parseFile (nv : Bool) (fn : Str) (src : List UInt8) (er : ApiErr) (n : Option Ast.File)
    (h : parseFile nv fn src = some ⟨n, some er⟩) :
    (∃ off line col msg, er = .parse fn off line col msg) ∨
    (er = .other ∧ ∃ l ∈ logicalLines ((readlines src).map decodeUtf8), HasNumber l (2 ^ 31)) := by
  unfold parseFile at h
  rcases parseFileLines_good nv fn ((readlines src).map decodeUtf8) with
    ⟨a, h1, _⟩ | ⟨msg, q, h1, h2⟩ | ⟨h1, h2⟩
  · rw [h1] at h; cases h
  · rw [h1] at h; cases h
    exact Or.inl ⟨_, _, _, _, rfl⟩
  · rw [h1] at h; cases h
    obtain ⟨l, k1, d, k2, k3, k4⟩ := h2.line
    exact Or.inr ⟨rfl, l, k1, d, k2, k3, k4⟩

/-- C07.  A parse error carries the file name and is located at a place of the file or its end. -/
theorem C07_parseFile (nv : Bool) (fn fn' : Str) (src : List UInt8) (off line col : Nat) (msg : Str)
    (n : Option Ast.File) (h : parseFile nv fn src = some ⟨n, some (.parse fn' off line col msg)⟩) :
    SrcPos ((readlines src).map decodeUtf8) line col ∧ fn' = fn := by
  unfold parseFile at h
  rcases parseFileLines_good nv fn ((readlines src).map decodeUtf8) with
    ⟨a, h1, _⟩ | ⟨msg, q, h1, h2⟩ | ⟨h1, h2⟩
  · rw [h1] at h; cases h
  · rw [h1] at h; cases h
    exact ⟨posOK_src h2, rfl⟩
  · rw [h1] at h; cases h

/-- C06 is false without the exception: `lockvar 99999999999 x` gives an error that is no
`ErrVimlParser`. -/
theorem C06_exception : (parseFileLines false [] [cs!"lockvar 99999999999 x"]).map (·.err) =
    some (some .other) := by decide +kernel

/-- Rejected in the second line, at the end of the file, and in an expression. -/
example : (parseFileLines false cs!"f" [cs!"echo 1", cs!"endif"]).map (·.err) =
      some (some (.parse cs!"f" 7 2 1 cs!"E580: :endif without :if")) ∧
    (parseFileLines false [] [cs!"if 1"]).map (·.err) =
      some (some (.parse [] 5 2 0 cs!"E171: Missing :endif:    TOPLEVEL")) ∧
    (parseFileLines false [] [cs!"call f(]"]).map (·.err) =
      some (some (.parse [] 7 1 8 cs!"unexpected token: ]")) := by decide +kernel

/-- C08.  Every position stored in a returned file is a place of the file and carries the file name:
those of the file node, of statements, their command arguments and end commands, function parameters, and all
expressions. -/
theorem C08_parseFile (nv : Bool) (fn : Str) (src : List UInt8) (f : Ast.File) (er : Option ApiErr)
    (h : parseFile nv fn src = some ⟨some f, er⟩) :
    let ok := fun q : Ast.Pos => SrcPos ((readlines src).map decodeUtf8) q.line q.column ∧ q.filename = fn
    ok f.start ∧ AllF (fun _ s => (∀ q ∈ stmtOwnPos s, ok q) ∧
      ∀ e ∈ exprsOf s, AllE (fun e => ∀ q ∈ ownPos e, ok q) (fun _ => False) e) f := by
  obtain ⟨_, h1⟩ := parseFileLines_all h
  refine ⟨Spec.Real.src ⟨_, h1.start⟩, h1.all.imp fun ctx s hs => ⟨fun q hq => (hs.ownPos q hq).src, ?_⟩⟩
  exact fun e he => (hs.exprPos he).imp (Q := fun e => ∀ q ∈ ownPos e, _) fun e h q hq => (h q hq).src

/-- A file with a block, a continuation line and a heredoc. -/
example : (match parseFileLines false cs!"f" [cs!"if x", cs!" let y =<< E", cs!"t", cs!"E", cs!"endif"] with
    | some ⟨some ⟨st, [.if_ q ea [.let_ q' _ _ (some (.ident i)) [] none (.heredoc _ [] _ [.basicLit b _ _])]
        (.ident c) [] none e]⟩, none⟩ =>
      (st.line, st.column) == (1, 1) && (q.line, q.column) == (1, 1) && ea.argpos == some ⟨3, 1, 4, cs!"f"⟩ &&
      (c.pos.line, c.pos.column) == (1, 4) && (q'.line, q'.column) == (2, 2) &&
      (i.pos.line, i.pos.column) == (2, 6) && (b.line, b.column) == (3, 1) && (e.pos.line, e.pos.column) == (5, 1)
    | _ => false) = true := by decide +kernel

/-! ### C12, C13, C18: expressions in statements -/

/-- C12 in files: literals, names, operators and brackets of every expression stand verbatim at their
positions.  (Heredocs: `C42_heredoc`.) -/
theorem C12_parseFile (nv : Bool) (fn : Str) (lines : List Str) (f : Ast.File) (er : Option ApiErr)
    (h : parseFileLines nv fn lines = some ⟨some f, er⟩) :
    AllF (fun _ s => ∀ e ∈ exprsOf s, isHeredoc e = false →
      AllE (fun e => (∀ x ∈ ownText e, TextAt (mkEnv lines) fn x.1 x.2) ∧ openOK (mkEnv lines) fn e ∧
        shapeOK e) (litKey (mkEnv lines) fn) e) f :=
  (parseFileLines_all h).2.all.imp fun _ _ hs e he hh =>
    (hs.exprs e he hh).2.imp fun _ h => ⟨h.text, h.open_, h.shape⟩

/-- C37 in files: every operator is the whole token at the position of its node. -/
theorem C37_parseFile (nv : Bool) (fn : Str) (lines : List Str) (f : Ast.File) (er : Option ApiErr)
    (h : parseFileLines nv fn lines = some ⟨some f, er⟩) :
    AllF (fun _ s => ∀ e ∈ exprsOf s, isHeredoc e = false → AllE (opOK (mkEnv lines) fn) (fun _ => False) e) f := by
  refine (parseFileLines_all h).2.all.imp fun _ _ hs e he hh => ?_
  refine Spec.AllE.noKeys ?_ ((hs.exprs e he hh).2.imp (Q := opOK (mkEnv lines) fn) fun e he => he.opr)
  exact fun e he => litKey_leaf (fun q v _ => fun h => absurd rfl h) he

/-- C13 in files: the operands of every operator are at the level it requires. -/
theorem C13_parseFile (nv : Bool) (fn : Str) (lines : List Str) (f : Ast.File) (er : Option ApiErr)
    (h : parseFileLines nv fn lines = some ⟨some f, er⟩) :
    AllF (fun _ s => ∀ e ∈ exprsOf s, isHeredoc e = false →
      1 ≤ level e ∧ AllE precOK (fun _ => False) e) f := by
  refine (parseFileLines_all h).2.all.imp fun _ _ hs e he hh => ⟨(hs.exprs e he hh).1, ?_⟩
  refine Spec.AllE.noKeys ?_ ((hs.exprs e he hh).2.imp (Q := precOK) fun e he => he.prec)
  exact fun e he => litKey_leaf (fun q v _ => trivial) he

/-- C18 in files: no call has more than 20 arguments. -/
theorem C18_parseFile (nv : Bool) (fn : Str) (lines : List Str) (f : Ast.File) (er : Option ApiErr)
    (h : parseFileLines nv fn lines = some ⟨some f, er⟩) :
    AllF (fun _ s => ∀ e ∈ exprsOf s, isHeredoc e = false → AllE argsOK (fun _ => False) e) f := by
  refine (parseFileLines_all h).2.all.imp fun _ _ hs e he hh => ?_
  refine Spec.AllE.noKeys ?_ ((hs.exprs e he hh).2.imp (Q := argsOK) fun e he => he.args)
  exact fun e he => litKey_leaf (fun q v _ => trivial) he

example : (match parseFileLines false [] [cs!"call f('a', 1 + 2 * 3)"] with
    | some ⟨some ⟨_, [.exCall _ _ (.ident _) _ [.basicLit q .STRING v, .binary _ _ .PLUS (.binary _ _ .STAR _)]]⟩,
        none⟩ => (q.line, q.column) == (1, 8) && v == cs!"'a'"
    | _ => false) = true := by decide +kernel

/-! ### C19, C20: parameters -/

/-- C19.  Parameters of functions are distinct valid names other than `firstline` and `lastline`, with
`...` last if at all; parameters of lambdas in the file are distinct valid names too. -/
theorem C19_parseFile (nv : Bool) (fn : Str) (lines : List Str) (f : Ast.File) (er : Option ApiErr)
    (h : parseFileLines nv fn lines = some ⟨some f, er⟩) :
    AllF (fun _ s => (kind s = .function → FuncParams ((paramsOf s).map (·.name))) ∧
      ∀ e ∈ exprsOf s, isHeredoc e = false → AllE paramsOK (fun _ => False) e) f := by
  refine (parseFileLines_all h).2.all.imp fun _ s hs => ⟨fun hk => ?_, fun e he hh => ?_⟩
  · cases s <;> simp [kind] at hk
    exact hs.sig.1
  · refine Spec.AllE.noKeys ?_ ((hs.exprs e he hh).2.imp (Q := paramsOK) fun e he => he.params)
    exact fun e he => litKey_leaf (fun q v _ => trivial) he

/-- C20.  Parameters with default values come after those without, and there are as many as default
values; in the source the former are followed by `=`, the latter are not. -/
theorem C20_defaults (nv : Bool) (fn : Str) (lines : List Str) (f : Ast.File) (er : Option ApiErr)
    (h : parseFileLines nv fn lines = some ⟨some f, er⟩) :
    AllF (fun _ s => ∀ q ea b n ps da at_ e, s = .function q ea b n ps da at_ e →
      DefaultsTail (mkEnv lines) fn ps da ∧ da.length ≤ ps.length) f := by
  refine (parseFileLines_all h).2.all.imp fun _ s hs q ea b n ps da at_ e he => ?_
  subst he
  refine ⟨hs.sig.2.1, ?_⟩
  obtain ⟨x, y, d, rfl, h1, _⟩ := hs.sig.2.1
  simp only [List.length_append]
  omega

example : (match parseFileLines false [] [cs!"function! F(a, b = 1, ...) range", cs!"endfunction"] with
    | some ⟨some ⟨_, [.function _ _ [] (.ident _) ps [.basicLit ..] at_ _]⟩, none⟩ =>
      ps.map (·.name) == [cs!"a", cs!"b", cs!"..."] && at_.range && !at_.abort
    | _ => false) = true ∧
    (parseFileLines false [] [cs!"function F(a, a)"]).map (·.err) =
      some (some (.parse [] 14 1 15 cs!"E853: Duplicate argument name: a")) ∧
    (parseFileLines false [] [cs!"function F(firstline)"]).map (·.err) =
      some (some (.parse [] 11 1 12 cs!"E125: Illegal argument: firstline")) ∧
    (parseFileLines false [] [cs!"function F(a = 1, b)"]).map (·.err) =
      some (some (.parse [] 18 1 19 cs!"E989: Non-default argument follows default argument")) := by
  decide +kernel

/-! ### C21, C23: blocks -/

/-- C21.  Every block has the end command of its kind, which stands in the source where the node says; parts
of `:if` and `:try` hang under an `:if` or `:try`, in the right fields, and nowhere else. -/
theorem C21_blocks (nv : Bool) (fn : Str) (lines : List Str) (f : Ast.File) (er : Option ApiErr)
    (h : parseFileLines nv fn lines = some ⟨some f, er⟩) :
    NoParts f.body ∧ AllF (fun _ s => partsOK s ∧
      ∀ e, endOf s = some e → e.pos = e.ea.cmdpos ∧ LineAt (mkEnv lines) fn e.ea) f := by
  obtain ⟨_, h1⟩ := parseFileLines_all h
  exact ⟨h1.parts, h1.all.imp fun _ s hs => ⟨hs.parts, hs.end_⟩⟩

example : (match parseFileLines false [] [cs!"try", cs!"if 1", cs!"elseif 2", cs!"else", cs!"endif",
      cs!"catch /a/", cs!"finally", cs!"endtry"] with
    | some ⟨some ⟨_, [.try_ _ _ [.if_ _ _ [] _ [.elseIf ..] (some (.else_ ..)) e] [.catch_ _ _ _ p]
        (some (.finally_ ..)) e']⟩, none⟩ => e.pos.line == 5 && e'.pos.line == 8 && p == cs!"a"
    | _ => false) = true := by decide +kernel

/-- C23.  `:return` occurs only inside a function, `:break` and `:continue` only inside a loop (of the same
function or not). -/
theorem C23_context (nv : Bool) (fn : Str) (lines : List Str) (f : Ast.File) (er : Option ApiErr)
    (h : parseFileLines nv fn lines = some ⟨some f, er⟩) : AllF ctxOK f :=
  (parseFileLines_all h).2.all.imp fun _ _ hs => hs.ctx

/-- `:break` inside a function inside a loop is accepted; `:return` and `:break` alone are not. -/
example : (match parseFileLines false [] [cs!"while 1", cs!"function F()", cs!"break", cs!"return", cs!"endfunction",
      cs!"endwhile"] with
    | some ⟨some ⟨_, [.while_ _ _ [.function _ _ [.break_ .., .return_ ..] _ _ _ _ _] _ _]⟩, none⟩ => true
    | _ => false) = true ∧
    (parseFileLines false [] [cs!"return"]).map (·.err) =
      some (some (.parse [] 0 1 1 cs!"E133: :return not inside a function")) ∧
    (parseFileLines false [] [cs!"if 1", cs!"break", cs!"endif"]).map (·.err) =
      some (some (.parse [] 5 2 1 cs!"E587: :break without :while or :for")) := by decide +kernel

/-! ### C24, C42: text -/

/-- C24.  The text of a comment node is what follows the quote at its position up to the end of the line.
The text of a raw command node is a slice of the logical line that starts at `Linepos` and ends where only
blanks are left before the end of the line, a bar or a comment; that is, unless the command is one of those
that keep several lines (see C42). -/
theorem C24_text (nv : Bool) (fn : Str) (lines : List Str) (f : Ast.File) (er : Option ApiErr)
    (h : parseFileLines nv fn lines = some ⟨some f, er⟩) :
    AllF (fun _ s =>
      (∀ q t, s = .comment q t → ∃ r r', At (mkEnv lines) fn q r ∧ Reads r ('"' :: t) r' ∧ AtEnd r') ∧
      (∀ q ea t, s = .excmd q ea t →
        (∀ c, ea.cmd = some c → c.name ∉ [cs!"append", cs!"insert", cs!"loadkeymap"] ++ scriptCmds) →
        ∃ r, At (mkEnv lines) fn ea.linepos r ∧ OneLine r t)) f := by
  refine (parseFileLines_all h).2.all.imp fun _ s hs => ⟨?_, ?_⟩
  · rintro q t rfl
    exact hs.text
  · rintro q ea t rfl hn
    obtain ⟨r, h1, h2⟩ := hs.text
    refine ⟨r, h1, ?_⟩
    cases hc : ea.cmd with
    | none => rw [hc] at h2; exact h2.2
    | some c =>
      rw [hc] at h2
      have := hn c hc
      simp only [List.cons_append, List.nil_append, List.mem_cons, not_or] at this
      simp only [List.mem_cons, List.not_mem_nil, or_false, this.1, this.2.1, this.2.2.1, this.2.2.2,
        if_false] at h2
      exact h2

example : (match parseFileLines false [] [cs!"  silent! edit foo | \" done"] with
    | some ⟨some ⟨_, [.excmd q ea t, .comment q' c]⟩, none⟩ =>
      t == cs!"silent! edit foo" && ea.linepos.column == 3 && q.column == 11 && c == cs!" done" && q'.column == 22
    | _ => false) = true := by decide +kernel

/-- C42 for `:append` and `:insert`: the text is the logical line of the command and the following ones up to
and including `.`, joined by line feeds. -/
theorem C42_append (nv : Bool) (fn : Str) (lines : List Str) (f : Ast.File) (er : Option ApiErr)
    (h : parseFileLines nv fn lines = some ⟨some f, er⟩) :
    AllF (fun _ s => ∀ q ea t, s = .excmd q ea t → Named ea cs!"append" ∨ Named ea cs!"insert" →
      ∃ r line r', At (mkEnv lines) fn ea.linepos r ∧ BlockAt r line cs!"." t r') f := by
  refine (parseFileLines_all h).2.all.imp fun _ s hs => ?_
  rintro q ea t rfl hn
  obtain ⟨r, h1, h2⟩ := hs.text
  rcases hn with ⟨c, hc, hn⟩ | ⟨c, hc, hn⟩
  all_goals
    rw [hc] at h2
    simp only [hn, List.mem_cons, true_or, or_true, if_true] at h2
    obtain ⟨line, r', h2⟩ := h2
    exact ⟨r, line, r', h1, h2⟩

/-- C42 for script commands (`:lua` and so on): with `<<` at the start of the arguments the text is the
logical line of the command and the following ones up to and including the end marker; otherwise the command
keeps its own line only. -/
theorem C42_script (nv : Bool) (fn : Str) (lines : List Str) (f : Ast.File) (er : Option ApiErr)
    (h : parseFileLines nv fn lines = some ⟨some f, er⟩) :
    AllF (fun _ s => ∀ q ea t c, s = .excmd q ea t → ea.cmd = some c → c.name ∈ scriptCmds →
      ∃ r, At (mkEnv lines) fn ea.linepos r ∧
        ((∃ line m r', Marker line m ∧ BlockAt r line m t r') ∨
          OneLine r t ∧ ∃ ra w r1, ArgAt (mkEnv lines) fn ea ra ∧ Reads ra w r1 ∧ White w ∧
            (headSym r1).is iswhite = false ∧ ∀ r2, ¬ Reads r1 cs!"<<" r2)) f := by
  refine (parseFileLines_all h).2.all.imp fun _ s hs => ?_
  rintro q ea t c rfl hc hn
  obtain ⟨r, h1, h2⟩ := hs.text
  refine ⟨r, h1, ?_⟩
  rw [hc] at h2
  simp only at h2
  rw [if_neg, if_neg, if_pos hn] at h2
  · exact h2
  · intro e; rw [e] at hn; exact absurd hn (by decide)
  · intro e
    simp only [List.mem_cons, List.not_mem_nil, or_false] at e
    rcases e with e | e <;> rw [e] at hn <;> exact absurd hn (by decide)

/-- C42 for heredocs: flags, end marker and body lines of `let x =<< ...` are what stands in the source: the
body is the sequence of lines between the command's and the first one equal to the marker.  (If a bar follows the
marker, the rest of that line counts as the first body line.) -/
theorem C42_heredoc (nv : Bool) (fn : Str) (lines : List Str) (f : Ast.File) (er : Option ApiErr)
    (h : parseFileLines nv fn lines = some ⟨some f, er⟩) :
    AllF (fun _ s => ∀ e ∈ exprsOf s, isHeredoc e = true →
      ∃ q ea l ls rest, s = .let_ q ea cs!"=<<" l ls rest e ∧ Named ea cs!"let" ∧
        hereText (mkEnv lines) fn ea e) f := by
  refine (parseFileLines_all h).2.all.imp fun _ s hs e he hh => ?_
  have hne : ∀ {e'}, e = e' → isHeredoc e' = false → False := by rintro _ rfl h; rw [h] at hh; cases hh
  cases s
  case let_ q ea op l ls rest r =>
    have ht := hs.text
    have hin : e ∉ l.toList ++ ls ++ rest.toList := by
      intro hin
      have : target e := by
        rcases hs.targets.1 with ⟨x, rfl, rfl, rfl, h1⟩ | ⟨rfl, _, h1, h2⟩
        · simp at hin; rw [hin]; exact h1
        · simp only [Option.toList_none, List.nil_append, List.mem_append, Option.mem_toList] at hin
          exact hin.elim (h1 e) (h2 e)
      cases e <;> simp_all [isHeredoc, target]
    have : e = r := by
      simp only [exprsOf, List.mem_append, List.mem_singleton] at he hin
      exact he.resolve_left hin
    subst this
    simp only [textOK, hh, if_true] at ht
    exact ⟨q, ea, l, ls, rest, by rw [ht.1], ht.2⟩
  case lockVar => exact (hne rfl (hs.text.2 e he)).elim
  case unLockVar => exact (hne rfl (hs.text.2 e he)).elim
  all_goals first
    | exact (hne rfl (hs.text e he)).elim
    | (simp [exprsOf] at he; done)

example : (match parseFileLines false [] [cs!"append", cs!"x", cs!".", cs!"lua << E", cs!"y", cs!"E",
      cs!"let z =<< trim F", cs!" w", cs!"F"] with
    | some ⟨some ⟨_, [.excmd _ _ a, .excmd _ _ l,
        .let_ _ _ _ _ _ _ (.heredoc _ [.basicLit _ _ fl] m [.basicLit _ _ b])]⟩, none⟩ =>
      a == cs!"append\nx\n." && l == cs!"lua << E\ny\nE" && fl == cs!"trim" && m == cs!"F" && b == cs!" w"
    | _ => false) = true := by decide +kernel

/-! ### C26: dispatch -/

/-- C26.  Every command of the tables and every user command names a parser the dispatcher knows. -/
theorem C26_dispatch (c : Cmd) (h : c ∈ builtinCommands ∨ c ∈ neovimAdditionalCommands ∨
    ∃ name, c = ⟨name, 0, [.USERCMD], cs!"parse_cmd_usercmd"⟩) : (dispatch c.parser).isSome = true := by
  rcases h with h | h | ⟨name, rfl⟩
  · exact dispatch_builtin c h
  · exact dispatch_neovim c h
  · show (dispatch cs!"parse_cmd_usercmd").isSome = true
    decide +kernel

/-! ### C41: how far a command reads -/

/-- States between commands in a run of the parser, with the rest of the input. -/
inductive Reach (nv : Bool) (lines : List Str) : PState → List Cell → Prop
  | start : Reach nv lines { neovim := nv, cur := { head := .toplevel }, stack := [], cache := [] }
      (mkEnv lines).buf
  | next {st st' : PState} {r r' : List Cell} : Reach nv lines st r → r ≠ [] →
      (parseOneCmd st).run (mkEnv lines) r = .ok st' r' → Reach nv lines st' r'

theorem Reach.ok {nv : Bool} {lines : List Str} {st : PState} {r : List Cell} (h : Reach nv lines st r) :
    st.OK ∧ Suf (mkEnv lines) r := by
  induction h with
  | start => exact ⟨initState_ok nv, Suf.self _⟩
  | next _ hne h ih =>
    have hw := parseOneCmd_spec (mkEnv_ok lines) (good_closed (fn := []) (mkEnv_ok lines)) ih.2 hne ih.1
    have ho := wp_run hw h
    obtain ⟨bs, hs, _⟩ := ho.steps
    exact ⟨hs.ok ih.1, ho.suffix.trans ih.2⟩

/-- Statements that may take up several lines: heredocs, `:append` and `:insert`, `:loadkeymap`, script
commands, and `:finish`, after which the rest of the file is ignored. -/
def multiLine : VStmt → Prop
  | .excmd _ ea _ => ∃ c, ea.cmd = some c ∧
      c.name ∈ [cs!"append", cs!"insert", cs!"loadkeymap", cs!"finish"] ++ scriptCmds
  | .let_ _ _ _ _ (.heredoc ..) => True
  | _ => False

/-- C41 for commands: wherever the parser is between two commands, the next one reads text of the current
line and then at most the line end (or bar) that follows it, unless it adds a statement of several lines.  In any
case it consumes something. -/
theorem C41_command (nv : Bool) (lines : List Str) (st st' : PState) (r r' : List Cell)
    (hr : Reach nv lines st r) (hne : r ≠ []) (h : (parseOneCmd st).run (mkEnv lines) r = .ok st' r') :
    r'.length < r.length ∧
    ((∃ v r1, Reads r v r1 ∧ r' = r1.tail) ∨
      ∃ l n, st'.cur.body = st.cur.body ++ l ∧ n ∈ l ∧ multiLine n) := by
  obtain ⟨ho, hs⟩ := hr.ok
  have hw := parseOneCmd_spec (mkEnv_ok lines) (good_closed (fn := []) (mkEnv_ok lines)) hs hne ho
  have ho := wp_run hw h
  refine ⟨ho.lt, ho.line.imp ?_ ?_⟩
  · rintro ⟨r1, h1, h2⟩
    obtain ⟨v, hv⟩ := h1.reads
    exact ⟨v, r1, hv, h2⟩
  · rintro ⟨l, n, h1, h2, h3⟩
    refine ⟨l, n, h1, h2, ?_⟩
    have key : ∀ {ea : ExArg} {h : Handler}, CmdIs ea h → h ≠ .common →
        (∀ x, (x, h) ∈ nameTable → x ∈ [cs!"append", cs!"insert", cs!"loadkeymap", cs!"finish"] ++ scriptCmds) →
        ∃ c, ea.cmd = some c ∧ c.name ∈ [cs!"append", cs!"insert", cs!"loadkeymap", cs!"finish"] ++ scriptCmds := by
      intro ea h hc hh hx
      obtain ⟨c, h1, h2⟩ := hc.mem hh
      exact ⟨c, h1, hx _ h2⟩
    cases n with
    | excmd q ea s =>
      rcases h3 with h3 | h3 | h3 | h3
      all_goals
        refine key h3 (by simp) ?_
        intro x hx
        simp [nameTable] at hx
        first
          | (subst hx; simp [scriptCmds]; done)
          | (rcases hx with rfl | rfl | rfl | rfl | rfl | rfl | rfl | rfl <;> simp [scriptCmds])
          | (rcases hx with rfl | rfl <;> simp [scriptCmds])
    | let_ q ea op lhs e =>
      cases e <;> first | exact h3 | trivial
    | _ => exact h3.elim

/-! ### C45: modifiers and ranges -/

/-- C45.  The line of every command of a returned file, also of end commands, reads: the recorded modifiers, the
text of the recorded range, blanks and colons, the command name or an abbreviation of it at `Cmdpos`, and the
arguments at `Argpos`; all on one logical line.  (`C45_unique`: no other modifiers fit the text.) -/
theorem C45_line (nv : Bool) (fn : Str) (lines : List Str) (f : Ast.File) (er : Option ApiErr)
    (h : parseFileLines nv fn lines = some ⟨some f, er⟩) :
    AllF (fun _ s => (∀ ea, exArgOf s = some ea → stmtPos s = ea.cmdpos ∧ LineAt (mkEnv lines) fn ea) ∧
      ∀ e, endOf s = some e → LineAt (mkEnv lines) fn e.ea) f :=
  (parseFileLines_all h).2.all.imp fun _ _ hs => ⟨hs.start, fun e he => (hs.end_ e he).2⟩

/-- C45: the modifiers at a place, and where they end, are determined by the text. -/
theorem C45_unique (r r1 r2 : List Cell) (ms ns : List Modifier) (h1 : Mods r ms r1) (h2 : Mods r ns r2) :
    ms = ns ∧ r1 = r2 := h1.unique h2

example : (match parseFileLines false [] [cs!":silent 3verb bel 1,/x y/+2 d a"] with
    | some ⟨some ⟨_, [.excmd q ea _]⟩, none⟩ =>
      ea.modifiers == [⟨cs!"silent", some 0, none⟩, ⟨cs!"verbose", none, some 3⟩, ⟨cs!"belowright", none, none⟩] &&
      ea.range == [cs!"1", cs!",", cs!"x y", cs!"+2"] && ea.cmd.map (·.name) == some cs!"delete" && q.column == 29
    | _ => false) = true := by decide +kernel

/-! ### C47-C50: what nodes contain -/

/-- C47.  A statement node belongs to the command it is named after. -/
theorem C47_names (nv : Bool) (fn : Str) (lines : List Str) (f : Ast.File) (er : Option ApiErr)
    (h : parseFileLines nv fn lines = some ⟨some f, er⟩) : AllF (fun _ s => nameOK s) f :=
  (parseFileLines_all h).2.all.imp fun _ _ hs => hs.name

/-- C48.  Left-hand sides of assignments and loops are assignable: variables, options, environment variables,
registers, items, slices and members; a single one or a non-empty list with an optional rest.  Names of
functions are as Vim wants them. -/
theorem C48_targets (nv : Bool) (fn : Str) (lines : List Str) (f : Ast.File) (er : Option ApiErr)
    (h : parseFileLines nv fn lines = some ⟨some f, er⟩) : AllF (fun _ s => targetsOK s) f :=
  (parseFileLines_all h).2.all.imp fun _ _ hs => hs.targets

example : (match parseFileLines false [] [cs!"let [a, b; c] = x", cs!"let @a = 1", cs!"for [k, v] in d", cs!"endfor"] with
    | some ⟨some ⟨_, [.let_ _ _ _ none [.ident _, .ident _] (some (.ident _)) _, .let_ _ _ _ (some (.basicLit _ .REG _)) [] none _,
        .for_ _ _ [] none [.ident _, .ident _] none _ _]⟩, none⟩ => true
    | _ => false) = true ∧
    (parseFileLines false [] [cs!"for f(1) in x"]).map (·.err) = some (some (.parse [] 5 1 6 cs!"Missing \"in\" after :for")) ∧
    (parseFileLines false [] [cs!"function foo()"]).map (·.err) =
      some (some (.parse [] 9 1 10 cs!"E128: Function name must start with a capital or contain a colon: foo")) := by
  decide +kernel

/-- C49.  The attributes of a function are the words after its parameters. -/
theorem C49_attributes (nv : Bool) (fn : Str) (lines : List Str) (f : Ast.File) (er : Option ApiErr)
    (h : parseFileLines nv fn lines = some ⟨some f, er⟩) :
    AllF (fun _ s => ∀ q ea b n ps da at_ e, s = .function q ea b n ps da at_ e →
      AttrsAt (mkEnv lines) fn ea at_) f := by
  refine (parseFileLines_all h).2.all.imp fun _ s hs q ea b n ps da at_ e he => ?_
  subst he
  exact hs.sig.2.2

/-- C50.  Assignment operators, the depth of `:lockvar`, the group of `:echohl` and the pattern of `:catch`
are the text in the source. -/
theorem C50_text (nv : Bool) (fn : Str) (lines : List Str) (f : Ast.File) (er : Option ApiErr)
    (h : parseFileLines nv fn lines = some ⟨some f, er⟩) : AllF (fun _ s => textOK (mkEnv lines) fn s) f :=
  (parseFileLines_all h).2.all.imp fun _ _ hs => hs.text

example : (match parseFileLines false [] [cs!"let x ..= 'a'", cs!"lockvar 3 y", cs!"echohl None"] with
    | some ⟨some ⟨_, [.let_ _ _ op _ _ _ _, .lockVar _ _ d _, .echohl _ _ n]⟩, none⟩ =>
      op == cs!"..=" && d == 3 && n == cs!"None"
    | _ => false) = true := by decide +kernel

end Viml.Props
