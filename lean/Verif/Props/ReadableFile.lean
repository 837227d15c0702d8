/-
C74: the output of the compiler determines the script.
-/
import Verif.Lemmas.ReadableScript
import Verif.Props.Readable

namespace Viml.Props
open Viml Viml.Spec Viml.Readable

/-! ### What the parser guarantees -/

theorem zip_nl : ∀ (a b : List Str), (∀ x ∈ a, '\n' ∉ x) → (∀ x ∈ b, '\n' ∉ x) →
    ∀ w ∈ List.zipWith (fun p v => cs!"(" ++ p ++ cs!" " ++ v ++ cs!")") a b, '\n' ∉ w
  | [], _, _, _, w, h => by simp at h
  | _ :: _, [], _, _, w, h => by simp at h
  | x :: a, y :: b, ha, hb, w, h => by
    rw [List.zipWith_cons_cons, List.mem_cons] at h
    rcases h with rfl | h
    · have h1 := ha x (by simp)
      have h2 := hb y (by simp)
      simp [h1, h2]
    · exact zip_nl a b (fun x hx => ha x (by simp [hx])) (fun x hx => hb x (by simp [hx])) w h

theorem sigWords_nl {ps : List Ast.Ident} {da : List Ast.Expr} (h : ∀ i ∈ ps, '\n' ∉ i.name)
    (h' : ∀ e ∈ da, '\n' ∉ (sx e).text) : ∀ w ∈ sigWords ps da, '\n' ∉ w := by
  have hd : ∀ x ∈ (sxs da).map SX.text, '\n' ∉ x := by
    intro x hx
    obtain ⟨y, hy, rfl⟩ := List.mem_map.1 hx
    obtain ⟨e, he, rfl⟩ := sxs_mem hy
    exact h' e he
  have hp : ∀ l : List Str, (∀ x ∈ l, '\n' ∉ x) → ∀ w ∈ paramWords l ((sxs da).map SX.text), '\n' ∉ w := by
    intro l hl w hw
    rcases List.mem_append.1 hw with hw | hw
    · exact hl w (List.mem_of_mem_take hw)
    · exact zip_nl _ _ (fun x hx => hl x (List.mem_of_mem_drop hx)) (fun x hx => hd x (List.mem_of_mem_drop hx)) w hw
  have hn : ∀ x ∈ ps.map (·.name), '\n' ∉ x := by
    intro x hx
    obtain ⟨i, hi, rfl⟩ := List.mem_map.1 hx
    exact h i hi
  intro w hw
  simp only [sigWords] at hw
  split at hw
  · rcases List.mem_append.1 hw with hw | hw
    · exact hp _ (fun x hx => hn x (List.dropLast_subset _ hx)) w hw
    · rw [List.mem_singleton] at hw
      subst hw
      decide
  · exact hp _ hn w hw

theorem sigS {ps : List Ast.Ident} {da : List Ast.Expr} {env : Env} {fn : Str} (h : FuncParams (ps.map (·.name)))
    (h' : DefaultsTail env fn ps da) : SigS ps da ∧ ∀ i ∈ ps, '\n' ∉ i.name := by
  obtain ⟨a, b, d, h1, h2, h3, _, _, _, h4⟩ := h'
  have hw := param_word h.1
  obtain ⟨names, dots, k1, k2, _, k3⟩ := h.1
  have hc : ∀ i ∈ ps, i.name = cs!"..." ∨ ∃ c s, i.name = c :: s ∧ iswordc1 c = true ∧ ∀ x ∈ s, iswordc x = true := by
    intro i hi
    have : i.name ∈ names ++ dots := by rw [← k1]; exact List.mem_map.2 ⟨i, hi, rfl⟩
    rcases List.mem_append.1 this with h | h
    · exact .inr (k3 _ h)
    · rcases k2 with rfl | rfl
      · cases h
      · exact .inl (List.mem_singleton.1 h)
  refine ⟨⟨fun i hi => hw _ (List.mem_map.2 ⟨i, hi, rfl⟩), a, b, d, h1, h2, h3, fun i hi => ⟨h4 i hi, ?_⟩⟩, ?_⟩
  · intro e
    rcases hc i (by rw [h1]; exact List.mem_append_left _ hi) with h | ⟨c, s, h, hcc, _⟩
    · rw [e] at h; cases h
    · rw [e] at h; cases h; exact absurd hcc (by decide)
  · intro i hi hm
    rcases hc i hi with h | ⟨c, s, h, hcc, hs⟩
    · rw [h] at hm; exact absurd hm (by decide)
    · rw [h, List.mem_cons] at hm
      rcases hm with rfl | hm
      · exact absurd hcc (by decide)
      · exact absurd (hs _ hm) (by decide)

theorem okS_S {env : Env} {fn : Str} {ctx : List Kind} {s : Ast.Stmt} (hn : NoNL env) (h : OkS env fn ctx s)
    (hq : ∀ e ∈ exprsOf s, isHeredoc e = false → Everywhere clear e → Everywhere Q e ∧ 1 ≤ level e) (hc : clearS s) : S s := by
  have hp := h.printable hn
  have he : ∀ e ∈ exprsOf s, GE e ∧ '\n' ∉ (sx e).text := fun e he =>
    ⟨hq e he (hc.1 e he).1 (hc.1 e he).2, sx_nl hn (h.exprs e he (hc.1 e he).1).2⟩
  refine ⟨h.name, hp.1, he, ?_, h.targets, hc, ?_, ?_⟩
  · cases s <;> first | exact List.not_mem_nil | skip
    case comment q t => exact hp.2.2.2 q t rfl
    case echohl q ea t =>
      obtain ⟨r, r', ⟨_, _, h1⟩, h2, _⟩ := h.text
      exact hn.reads h1.1 h2
    case catch_ q ea b p =>
      obtain ⟨ra, w, r, ⟨_, _, h1⟩, h2, _, h3⟩ := h.text
      rcases h3 with ⟨rfl, _⟩ | ⟨r', c, h3⟩
      · exact List.not_mem_nil
      · have hs : r <:+ env.buf := by
          obtain ⟨p', rfl, _⟩ := h2
          exact (List.suffix_append p' r).trans h1.1
        intro hm
        rcases h3 with h3 | ⟨h3, _⟩
        · exact hn.reads hs h3 (by simp only [textOf] at hm; simp [hm])
        · exact hn.reads hs h3 (by simp only [textOf] at hm; simp [hm])
  · rintro q ea b n ps da at_ e rfl
    obtain ⟨h1, h2⟩ := sigS h.sig.1 h.sig.2.1
    exact ⟨h1, words_nl (sigWords_nl h2 fun e h3 => (he e (by simp [exprsOf, h3])).2)⟩
  · rintro q ea op l ls rest r rfl
    have h1 := h.text
    simp only [textOK, (hc.1 r (by simp [exprsOf])).1] at h1
    exact h1.1.1

theorem allS_S {nv : Bool} {fn : Str} {src : List UInt8} {f : Ast.File} {er : Option ApiErr}
    (h : parseFile nv fn src = some ⟨some f, er⟩) (hc : AllF (fun _ s => clearS s) f) : AllF (fun _ s => S s) f :=
  Spec.AllF.imp (fun _ _ h => okS_S (mkEnv_nl (readlines_nl src)) h.1.1 h.1.2 h.2)
    (allF_and (allF_and (parseFileLines_all h).2.all (file_Q h)) hc)

/-! ### The other direction -/

theorem nameOf_plain (ea : Ast.ExArg) : nameOf (plainEa ea) = nameOf ea := by
  cases h : ea.cmd <;> simp [nameOf, plainEa, h]

theorem sxWords_bare (l : List Ast.Expr) : sxWords (bareL l) = sxWords l := by rw [sxWords, sx_bareL, sxWords]

theorem lhsText_bare (l : Option Ast.Expr) (ls : List Ast.Expr) (x : Option Ast.Expr) :
    lhsText (bareO l) (bareL ls) (bareO x) = lhsText l ls x := by
  cases l <;> cases x <;> simp [lhsText, bareO, sx_bare, sxWords_bare]

theorem sigWords_plain (ps : List Ast.Ident) (da : List Ast.Expr) :
    sigWords (ps.map fun i => ⟨⟨0, 0, 0, []⟩, i.name⟩) (bareL da) = sigWords ps da := by
  simp [sigWords, sx_bareL, Function.comp_def]

theorem call_bare (f : Ast.Expr) (lp : Ast.Pos) (as : List Ast.Expr) :
    (sx (.call (bare f) ⟨0, 0, 0, []⟩ (bareL as))).text = (sx (.call f lp as)).text := by
  simp only [sx, sx_bare, sx_bareL]

mutual

theorem lines_plain (d : Nat) : ∀ s : Ast.Stmt, lines funcLine' d (plain s) = lines funcLine' d s
  | .function _ _ b n ps da _ _ => by
    simp only [plain, lines, linesL_plain _ b, funcLine', sx_bare, sigWords_plain, List.map_eq_nil_iff]
  | .if_ _ ea b c eis el _ => by
    simp only [plain, lines, firstLine, nameOf_plain, sx_bare, linesL_plain _ b, linesL_plain _ eis, linesO_plain _ el]
  | .elseIf _ ea b c => by simp only [plain, lines, firstLine, nameOf_plain, sx_bare, linesL_plain _ b]
  | .else_ _ ea b => by simp only [plain, lines, firstLine, nameOf_plain, linesL_plain _ b]
  | .while_ _ ea b c _ => by simp only [plain, lines, firstLine, nameOf_plain, sx_bare, linesL_plain _ b]
  | .for_ _ ea b l ls rest r _ => by
    simp only [plain, lines, firstLine, nameOf_plain, sx_bare, lhsText_bare, linesL_plain _ b]
  | .try_ _ ea b cs fi _ => by
    simp only [plain, lines, firstLine, nameOf_plain, linesL_plain _ b, linesL_plain _ cs, linesO_plain _ fi]
  | .catch_ _ ea b p => by simp only [plain, lines, firstLine, nameOf_plain, linesL_plain _ b]
  | .finally_ _ ea b => by simp only [plain, lines, firstLine, nameOf_plain, linesL_plain _ b]
  | .comment .. => by simp only [plain, lines, firstLine]
  | .excmd .. => by simp only [plain, lines, firstLine]
  | .delFunction .. => by simp only [plain, lines, firstLine, nameOf_plain, sx_bare]
  | .return_ _ _ none => by simp only [plain, lines, bareO, firstLine, nameOf_plain]
  | .return_ _ _ (some _) => by simp only [plain, lines, bareO, firstLine, nameOf_plain, sx_bare]
  | .exCall _ _ f lp as => by simp only [plain, lines, firstLine, nameOf_plain, call_bare f lp as]
  | .let_ .. => by simp only [plain, lines, firstLine, nameOf_plain, sx_bare, lhsText_bare]
  | .unLet .. => by simp only [plain, lines, firstLine, nameOf_plain, sxWords_bare]
  | .lockVar .. => by simp only [plain, lines, firstLine, nameOf_plain, sxWords_bare]
  | .unLockVar .. => by simp only [plain, lines, firstLine, nameOf_plain, sxWords_bare]
  | .continue_ .. => by simp only [plain, lines, firstLine, nameOf_plain]
  | .break_ .. => by simp only [plain, lines, firstLine, nameOf_plain]
  | .throw .. => by simp only [plain, lines, firstLine, nameOf_plain, sx_bare]
  | .eval .. => by simp only [plain, lines, firstLine, nameOf_plain, sx_bare]
  | .echoCmd .. => by simp only [plain, lines, firstLine, nameOf_plain, sxWords_bare]
  | .echohl .. => by simp only [plain, lines, firstLine, nameOf_plain]
  | .execute .. => by simp only [plain, lines, firstLine, nameOf_plain, sxWords_bare]

theorem linesL_plain (d : Nat) : ∀ l : List Ast.Stmt, linesL funcLine' d (plainL l) = linesL funcLine' d l
  | [] => rfl
  | s :: l => by simp only [plainL, linesL, lines_plain d s, linesL_plain d l]

theorem linesO_plain (d : Nat) : ∀ o : Option Ast.Stmt, linesO funcLine' d (plainO o) = linesO funcLine' d o
  | none => rfl
  | some s => by simp only [plainO, linesO, lines_plain d s]

end

/-! ### The theorems -/

/-- C74.  The compiler writes the same text for two parsed files exactly if they consist of the same statements, up to
positions, parentheses, modifiers, ranges and bangs, unless one of the statements is not `clearS`. -/
theorem C74_file {nv nv' : Bool} {fn fn' : Str} {src src' : List UInt8} {f g : Ast.File} {er er' : Option ApiErr}
    (hf : parseFile nv fn src = some ⟨some f, er⟩) (hg : parseFile nv' fn' src' = some ⟨some g, er'⟩)
    (cf : AllF (fun _ s => clearS s) f) (cg : AllF (fun _ s => clearS s) g) :
    Comp.compileFile f = Comp.compileFile g ↔ plainL f.body = plainL g.body := by
  rw [C31_compiles hf, C31_compiles hg, Comp.Out.text.injEq]
  constructor
  · exact script_inj (allS_S hf cf) (allS_S hg cg) (parseFile_printable hf).2 (parseFile_printable hg).2
  · intro h
    rw [← linesL_plain 0 f.body, h, linesL_plain]

/-- C74.  What `plain` leaves out is not written, in any script. -/
theorem C74_same {nv nv' : Bool} {fn fn' : Str} {src src' : List UInt8} {f g : Ast.File} {er er' : Option ApiErr}
    (hf : parseFile nv fn src = some ⟨some f, er⟩) (hg : parseFile nv' fn' src' = some ⟨some g, er'⟩)
    (h : plainL f.body = plainL g.body) : Comp.compileFile f = Comp.compileFile g := by
  rw [C31_compiles hf, C31_compiles hg, ← linesL_plain 0 f.body, h, linesL_plain]

/-- The output for two scripts. -/
def outs (s t : String) : Option (Comp.Out × Comp.Out) :=
  match parseFile false [] s.toUTF8.toList, parseFile false [] t.toUTF8.toList with
  | some ⟨some f, none⟩, some ⟨some g, none⟩ => some (Comp.compileFile f, Comp.compileFile g)
  | _, _ => none

/-- Modifiers, ranges, bangs and parentheses are not written; what belongs to which block is. -/
example : outs "silent! unlet! (x)\nendif" "unlet x" = none ∧
    outs "silent! let x = (1)\n1,2call f()" "let x = 1\ncall f()" =
      some (.text cs!"(let = x 1)\n(call (f))\n", .text cs!"(let = x 1)\n(call (f))\n") ∧
    outs "if a\nelse\necho 1\nendif\nunlet x" "if a\nelse\necho 1\nunlet x\nendif" =
      some (.text cs!"(if a\n else\n  (echo 1))\n(unlet x)\n", .text cs!"(if a\n else\n  (echo 1)\n  (unlet x))\n") := by
  decide +kernel

/-- `if a | let [x; y] = b.dot | endif` is clear. -/
example (q : Ast.Pos) (ea : Ast.ExArg) (e : Ast.EndCmd) : AllS (fun _ s => clearS s) [] (.if_ q ea [.let_ q ea cs!"=" none
    [.ident ⟨q, cs!"x"⟩] (some (.ident ⟨q, cs!"y"⟩)) (.dot (.ident ⟨q, cs!"b"⟩) q ⟨q, cs!"dot"⟩)] (.ident ⟨q, cs!"a"⟩) [] none e) := by
  have leaf : ∀ i, Everywhere clear (.ident i) := fun i => .mk _ trivial (by simp [subs]) (by simp [keys])
  refine .mk _ _ ⟨?_, trivial⟩ ?_
  · intro e he
    simp only [exprsOf, List.mem_singleton] at he
    subst he
    exact ⟨rfl, leaf _⟩
  · intro s hs
    simp only [subStmts, List.append_nil, Option.toList, List.mem_singleton] at hs
    subst hs
    refine .mk _ _ ⟨?_, ?_⟩ (by simp [subStmts])
    · intro e he
      simp only [exprsOf, Option.toList, List.nil_append, List.cons_append, List.mem_cons, List.not_mem_nil, or_false] at he
      rcases he with rfl | rfl | rfl
      · exact ⟨rfl, leaf _⟩
      · exact ⟨rfl, leaf _⟩
      · refine ⟨rfl, .mk _ trivial ?_ (by simp [keys])⟩
        intro e he
        simp only [subs, List.mem_singleton] at he
        subst he
        exact leaf _
    · intro e he
      simp only [List.head?_cons, Option.some.injEq] at he
      subst he
      simp only [isName]
      decide

/-- C74 is false for heredocs: the quotes around their lines are not escaped. -/
theorem C74_counterexample : ∃ src src' f g, parseFile false [] src = some ⟨some f, none⟩ ∧
    parseFile false [] src' = some ⟨some g, none⟩ ∧ Comp.compileFile f = Comp.compileFile g ∧ plainL f.body ≠ plainL g.body := by
  have h : (match parseFile false [] "let x =<< E\na\" \"b\nE".toUTF8.toList, parseFile false [] "let x =<< E\na\nb\nE".toUTF8.toList with
    | some ⟨some ⟨q, [.let_ p ea op l ls rest (.heredoc a b c [v])]⟩, none⟩, some ⟨some ⟨q', [.let_ p' ea' op' l' ls' rest' (.heredoc a' b' c' [v', w'])]⟩, none⟩ =>
      Comp.compileFile ⟨q, [.let_ p ea op l ls rest (.heredoc a b c [v])]⟩ == Comp.compileFile ⟨q', [.let_ p' ea' op' l' ls' rest' (.heredoc a' b' c' [v', w'])]⟩
    | _, _ => false) = true := by decide +kernel
  split at h
  · rename_i h1 h2
    exact ⟨_, _, _, _, h1, h2, by simpa using h, by simp [plainL, plain, bare, bareL]⟩
  · cases h

/-- It is false for a list of targets that starts with a variable named `dot`. -/
theorem C74_counterexample_dot : ∃ src src' f g, parseFile false [] src = some ⟨some f, none⟩ ∧
    parseFile false [] src' = some ⟨some g, none⟩ ∧ Comp.compileFile f = .text cs!"(let = (dot a b) x)\n" ∧
    Comp.compileFile g = .text cs!"(let = (dot a b) x)\n" ∧ plainL f.body ≠ plainL g.body := by
  have h : (match parseFile false [] "let [dot, a, b] = x".toUTF8.toList, parseFile false [] "let a.b = x".toUTF8.toList with
    | some ⟨some ⟨q, [.let_ p ea op none ls rest r]⟩, none⟩, some ⟨some ⟨q', [.let_ p' ea' op' (some l') ls' rest' r']⟩, none⟩ =>
      Comp.compileFile ⟨q, [.let_ p ea op none ls rest r]⟩ == .text cs!"(let = (dot a b) x)\n" &&
        Comp.compileFile ⟨q', [.let_ p' ea' op' (some l') ls' rest' r']⟩ == .text cs!"(let = (dot a b) x)\n"
    | _, _ => false) = true := by decide +kernel
  split at h
  · rename_i h1 h2
    simp at h
    exact ⟨_, _, _, _, h1, h2, h.1, h.2, by simp [plainL, plain, bareO]⟩
  · cases h

/-- It is false for `:lockvar` with the depth 0 and a number. -/
theorem C74_counterexample_lock : ∃ src src' f g, parseFile false [] src = some ⟨some f, none⟩ ∧
    parseFile false [] src' = some ⟨some g, none⟩ ∧ Comp.compileFile f = .text cs!"(lockvar 2 x)\n" ∧
    Comp.compileFile g = .text cs!"(lockvar 2 x)\n" ∧ plainL f.body ≠ plainL g.body := by
  have h : (match parseFile false [] "lockvar 0 2 x".toUTF8.toList, parseFile false [] "lockvar 2 x".toUTF8.toList with
    | some ⟨some ⟨q, [.lockVar p ea 0 ls]⟩, none⟩, some ⟨some ⟨q', [.lockVar p' ea' 2 ls']⟩, none⟩ =>
      Comp.compileFile ⟨q, [.lockVar p ea 0 ls]⟩ == .text cs!"(lockvar 2 x)\n" &&
        Comp.compileFile ⟨q', [.lockVar p' ea' 2 ls']⟩ == .text cs!"(lockvar 2 x)\n"
    | _, _ => false) = true := by decide +kernel
  split at h
  · rename_i h1 h2
    simp at h
    exact ⟨_, _, _, _, h1, h2, h.1, h.2, by simp [plainL, plain]⟩
  · cases h

end Viml.Props
