/-
C63: the catalogue of error messages (`Message` of `Spec/Message.lean`); C18: the limit of 20 arguments.
-/
import Verif.Lemmas.Message
import Verif.Lemmas.CompFile
import Verif.Props.FileError
import Verif.Props.Error

namespace Viml.Props
open Viml Viml.Spec

/-- C63.  The messages of `ParseExpr`. -/
theorem C63_expr (lines : List Str) (f : Str) (o l c : Nat) (m : Str)
    (h : parseExprLines lines = some ⟨none, some (.parse f o l c m)⟩) :
    ∃ q, o = q.i ∧ l = q.lnum ∧ c = q.col ∧ Message (mkEnv lines) [] m q := by
  obtain ⟨m, q, h1, h2⟩ := (C53_lines lines _).1 h
  cases h1
  exact ⟨q, rfl, rfl, rfl, (gErr_message List.suffix_rfl h2).message⟩

/-- C63.  The messages of `ParseFile`. -/
theorem C63_file (nv : Bool) (fn : Str) (lines : List Str) (n : Option Ast.File) (f : Str) (o l c : Nat) (m : Str)
    (h : parseFileLines nv fn lines = some ⟨n, some (.parse f o l c m)⟩) :
    ∃ q, o = q.i ∧ l = q.lnum ∧ c = q.col ∧ Message (mkEnv lines) fn m q := by
  obtain ⟨_, _, q, h1, h2, h3, h4⟩ := (C54_lines nv fn lines n f o l c m).1 h
  exact ⟨q, h1, h2, h3, fileErr_message h4⟩

theorem quoted_line {env : Env} (hn : NoNL env) {s : Str} (h : Quoted env s) : '\n' ∉ s := by
  rcases h with rfl | rfl | ⟨r, r', h1, h2⟩
  · decide
  · decide
  · exact hn.reads h1 h2

theorem message_line {env : Env} {fn m : Str} {q : Pos} (hn : NoNL env) (h : Message env fn m q) : '\n' ∉ m ∧ m ≠ [] := by
  have hd : ∀ n : Nat, '\n' ∉ Nat.toDigits 10 n := fun n hm => by
    have := Nat.isDigit_of_mem_toDigits (by decide) (by decide) hm
    exact absurd this (by decide)
  cases h with
  | fixed h =>
    have : ∀ m ∈ fixedMessages, '\n' ∉ m ∧ m ≠ [] := by decide +kernel
    exact this m h
  | @quoting p s q h hq =>
    have : ∀ m ∈ quotingMessages, '\n' ∉ m ∧ m ≠ [] := by decide +kernel
    obtain ⟨h1, h2⟩ := this p h
    refine ⟨?_, by simp [h2]⟩
    rw [List.mem_append, not_or]
    exact ⟨h1, quoted_line hn hq⟩
  | lambda hq =>
    refine ⟨?_, by simp⟩
    simp only [List.mem_append, not_or]
    exact ⟨⟨⟨by decide, quoted_line hn hq⟩, by decide⟩, hd _⟩
  | marker hq =>
    refine ⟨?_, by simp⟩
    simp only [List.mem_append, not_or]
    exact ⟨⟨by decide, quoted_line hn hq⟩, by decide⟩
  | tooMany => exact ⟨by decide, by decide⟩

/-- C63.  A message is one line of text and not empty: `ParseFile` on bytes. -/
theorem C63_line (nv : Bool) (fn : Str) (src : List UInt8) (n : Option Ast.File) (f : Str) (o l c : Nat) (m : Str)
    (h : parseFile nv fn src = some ⟨n, some (.parse f o l c m)⟩) : '\n' ∉ m ∧ m ≠ [] := by
  obtain ⟨q, _, _, _, h1⟩ := C63_file nv fn _ n f o l c m h
  exact message_line (mkEnv_nl (readlines_nl src)) h1

/-- C63.  The same for `ParseExpr`. -/
theorem C63_lineExpr (src : List UInt8) (f : Str) (o l c : Nat) (m : Str)
    (h : parseExpr src = some ⟨none, some (.parse f o l c m)⟩) : '\n' ∉ m ∧ m ≠ [] := by
  obtain ⟨q, _, _, _, h1⟩ := C63_expr _ f o l c m h
  exact message_line (mkEnv_nl (readlines_nl src)) h1

/-- The catalogue is no bigger than it claims: nothing in it starts with another text. -/
example : ¬ ∃ q, Message (mkEnv []) [] cs!"E999: Something else" q := by
  rintro ⟨q, h⟩
  generalize hm : cs!"E999: Something else" = m at h
  cases h with
  | fixed h =>
    subst hm
    exact absurd h (by decide)
  | @quoting p s q h =>
    have : ∀ p ∈ quotingMessages, p.take 3 ≠ cs!"E99" ∧ 3 ≤ p.length := by decide +kernel
    obtain ⟨h1, h2⟩ := this p h
    have := congrArg (List.take 3) hm
    rw [List.take_append_of_le_length h2] at this
    exact h1 this.symm
  | lambda => simp at hm
  | marker => simp at hm
  | tooMany => exact absurd hm (by decide)

/-! ### Every message of the catalogue is reported for some file -/

/-- A file for each of the `fixedMessages`. -/
def fixedFiles : List (List Str) :=
  [[cs!"echo x->y"], [cs!"\\x"], [cs!"function F()"], [cs!"return"],
   [cs!"function F()", cs!"for x in y", cs!"endfunction"], [cs!"for x in y"],
   [cs!"function F()", cs!"while 1", cs!"endfunction"], [cs!"while 1"],
   [cs!"function F()", cs!"if 1", cs!"endfunction"], [cs!"if 1"], [cs!"let x =<<"], [cs!"endfunction"], [cs!"wincmd"],
   [cs!"edit ++foo x"], [cs!"echo {a , b -> 1}"], [cs!"echo! 1"], [cs!"write > x"], [cs!"endif"], [cs!"else"],
   [cs!"elseif 1"], [cs!"continue"], [cs!"break"], [cs!"endfor"], [cs!"endwhile"],
   [cs!"function F()", cs!"try", cs!"endfunction"], [cs!"try"], [cs!"endtry"], [cs!"catch"],
   [cs!"try", cs!"finally", cs!"catch"], [cs!"finally"], [cs!"/abc\\"], [cs!"function F(a=1,b)"], [cs!"const a.b = 1"],
   [cs!"const @a = 1"], [cs!"const $A = 1"], [cs!"const &x = 1"], [cs!"echo \"ab\\"], [cs!"delfunction x[1:2]"],
   [cs!"for x on y"], [cs!"call x"], [cs!"echo \"ab"], [cs!"echo 'ab"]]

/-- A file for each of the `quotingMessages`, and what is quoted. -/
def quotingFiles : List (List Str × Str) :=
  [([cs!"function F(a:b)"], cs!"a:b"), ([cs!"function f()"], cs!"f"), ([cs!"let a:b:c = 1"], cs!"a:b:c"),
   ([cs!"let [a 1"], cs!"1"), ([cs!"if 1", cs!"else x"], cs!"x"), ([cs!"foo"], cs!"foo"), ([cs!"function F(a,a)"], cs!"a"),
   ([cs!"echo 0z1g"], cs!"1g"), ([cs!"echo #{+: 1}"], cs!"+"), ([cs!"echo )"], cs!")")]

theorem fileErr_parse {lines : List Str} {m : Str} (h : (fileErr lines).map (·.1) = some m) :
    ∃ o l c, parseFileLines false [] lines = some ⟨none, some (.parse [] o l c m)⟩ := by
  unfold fileErr at h
  split at h
  · rename_i n f o l c m' h1
    obtain ⟨rfl, rfl, _⟩ := (C54_lines false [] lines _ _ _ _ _ _).1 h1
    cases h
    exact ⟨o, l, c, h1⟩
  · cases h

/-- C63.  Each message that always reads the same is the error of some file. -/
theorem C63_fixed (m : Str) (hm : m ∈ fixedMessages) :
    ∃ lines o l c, parseFileLines false [] lines = some ⟨none, some (.parse [] o l c m)⟩ := by
  have h : fixedFiles.map (fun l => (fileErr l).map (·.1)) = fixedMessages.map some := by decide +kernel
  have : some m ∈ fixedMessages.map some := List.mem_map.2 ⟨m, hm, rfl⟩
  rw [← h] at this
  obtain ⟨l, _, h1⟩ := List.mem_map.1 this
  exact ⟨l, fileErr_parse h1⟩

/-- C63.  Each beginning of a message that quotes the source is the beginning of the error of some file. -/
theorem C63_quoting (p : Str) (hp : p ∈ quotingMessages) :
    ∃ lines s o l c, parseFileLines false [] lines = some ⟨none, some (.parse [] o l c (p ++ s))⟩ ∧ s ≠ [] ∧
      ∃ l ∈ lines, s <:+: l := by
  have h : quotingFiles.map (fun x => (fileErr x.1).map (·.1)) =
      List.zipWith (fun p x => some (p ++ x.2)) quotingMessages quotingFiles := by decide +kernel
  have h2 : ∀ x ∈ quotingFiles, x.2 ≠ [] ∧ ∃ l ∈ x.1, x.2 <:+: l := by decide +kernel
  obtain ⟨i, hi, rfl⟩ := List.getElem_of_mem hp
  have hl : quotingMessages.length = quotingFiles.length := by decide
  have h1 := congrArg (·[i]?) h
  have hi' : i < quotingFiles.length := hl ▸ hi
  simp only [List.getElem?_map, List.getElem?_zipWith, List.getElem?_eq_getElem hi', List.getElem?_eq_getElem hi,
    Option.map_some, Option.some.injEq] at h1
  obtain ⟨o, l, c, h3⟩ := fileErr_parse h1
  exact ⟨_, _, o, l, c, h3, h2 _ (List.getElem_mem hi')⟩

-- the other two kinds
example : (fileErr [cs!"echo {a, b ! -> 1}"]).map (·.1) = some (cs!"unexpected token: !, type: 42") := by decide +kernel
example : (fileErr [cs!"let x =<< END"]).map (·.1) = some (cs!"E990: Missing end marker 'END'") := by decide +kernel

/-! ### C18: too many arguments -/

/-- C18.  An expression that starts with a call of more than 20 arguments is rejected with `E740` after the last of them. -/
theorem C18_rejected (lines : List Str) (l : Ast.Expr) (r1 r2 : List Cell) (q0 : Ast.Pos) (n : Nat) (q : Pos)
    (h1 : Chain (mkEnv lines) [] 8 (mkEnv lines).buf l r1) (h2 : Mark (mkEnv lines) [] r1 .popen q0 r2)
    (h3 : Counted (mkEnv lines) [] n r2 q) (hn : 20 < n) :
    parseExprLines lines = some ⟨none, some (.parse [] q.i q.lnum q.col cs!"E740: Too many arguments for function")⟩ := by
  have he := mkEnv_ok lines
  have hs : Suf (mkEnv lines) (mkEnv lines).buf := List.suffix_rfl
  refine (C53_lines lines _).2 ⟨_, q, rfl, ?_⟩
  have h8 := GErr.call h1 h2 (.tooMany h3 hn)
  have h7 : GErr (mkEnv lines) [] 7 (mkEnv lines).buf cs!"E740: Too many arguments for function" q := by
    refine .noUnary (fun t r op ht hu => ?_) h8
    obtain ⟨_, ⟨t', r', h4, h5⟩, _⟩ := chain_run he h1 hs
    rw [(tokGet_iff he hs t r).2 ht] at h4
    cases h4
    have := h5.2.2.2.2 (by decide)
    generalize t.ty = y at this hu
    cases hu <;> simp [opsUnary] at this
  exact .first (by decide) (by decide) (by decide) (.first (by decide) (by decide) (by decide)
    (.first (by decide) (by decide) (by decide) (.first (by decide) (by decide) (by decide)
    (.first (by decide) (by decide) (by decide) (.first (by decide) (by decide) (by decide) h7)))))

theorem e740_only {env : Env} {fn : Str} {q : Pos} (h : Message env fn e740 q) : TooMany env fn q := by
  generalize hm : e740 = m at h
  cases h with
  | fixed h =>
    subst hm
    exact absurd h (by decide)
  | @quoting p s q h =>
    have : ∀ p ∈ quotingMessages, p.take 3 ≠ cs!"E74" ∧ 3 ≤ p.length := by decide +kernel
    obtain ⟨h1, h2⟩ := this p h
    have := congrArg (List.take 3) hm
    rw [List.take_append_of_le_length h2] at this
    exact absurd this.symm h1
  | lambda => simp [e740] at hm
  | marker => simp [e740] at hm
  | tooMany h => exact h

/-- C18.  `E740` is reported for nothing else: a parenthesis is followed by more than 20 arguments, and the position is that
of the token after the last one. -/
theorem C18_only (nv : Bool) (fn : Str) (lines : List Str) (n : Option Ast.File) (f : Str) (o l c : Nat)
    (h : parseFileLines nv fn lines = some ⟨n, some (.parse f o l c cs!"E740: Too many arguments for function")⟩) :
    ∃ q, o = q.i ∧ l = q.lnum ∧ c = q.col ∧ TooMany (mkEnv lines) fn q := by
  obtain ⟨q, h1, h2, h3, h4⟩ := C63_file nv fn lines n f o l c _ h
  exact ⟨q, h1, h2, h3, e740_only h4⟩

/-- C18.  The same for `ParseExpr`. -/
theorem C18_onlyExpr (lines : List Str) (f : Str) (o l c : Nat)
    (h : parseExprLines lines = some ⟨none, some (.parse f o l c cs!"E740: Too many arguments for function")⟩) :
    ∃ q, o = q.i ∧ l = q.lnum ∧ c = q.col ∧ TooMany (mkEnv lines) [] q := by
  obtain ⟨q, h1, h2, h3, h4⟩ := C63_expr lines f o l c _ h
  exact ⟨q, h1, h2, h3, e740_only h4⟩

/-- 21 arguments are too many, 20 are not. -/
example : exprErr [cs!"f(1,1,1,1,1,1,1,1,1,1,1,1,1,1,1,1,1,1,1,1,1)"] =
    some (cs!"E740: Too many arguments for function", 43, 1, 44) := by decide +kernel
example : exprErr [cs!"f(1,1,1,1,1,1,1,1,1,1,1,1,1,1,1,1,1,1,1,1)"] = none := by decide +kernel
example : ∃ q, TooMany (mkEnv [cs!"f(1,1,1,1,1,1,1,1,1,1,1,1,1,1,1,1,1,1,1,1,1)"]) [] q ∧ q.i = 43 := by
  obtain ⟨q, h1, h2, _, _⟩ := exprErr_gErr
    (show exprErr [cs!"f(1,1,1,1,1,1,1,1,1,1,1,1,1,1,1,1,1,1,1,1,1)"] = some (e740, 43, 1, 44) by decide +kernel)
  exact ⟨q, e740_only (gErr_message List.suffix_rfl h1).message, h2⟩

end Viml.Props
