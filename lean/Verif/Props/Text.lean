/-
Properties of texts made from trees, errors and operators: C36 (escaping), C37 (operator spelling),
C44 (error text).
-/
import Verif.Model.Api
import Verif.Model.Compiler
import Verif.Model.RefCompiler
import Verif.Spec.Command
import Verif.Spec.Expr

namespace Viml.Props
open Viml Viml.Spec

/-! ### C44: positions in error texts -/

/-- Decimal notation: digits without leading zero, of the given value. -/
def Decimal (n : Nat) (d : Str) : Prop :=
  Many1 isdigit d ∧ decVal d = n ∧ (d.head? = some '0' → d = ['0'])

theorem natStr_digits {n : Nat} {c : Char} (h : c ∈ natStr n) : isdigit c = true := by
  have := Nat.isDigit_of_mem_toDigits (by decide) (by decide) h
  simp only [Char.isDigit, Bool.and_eq_true, decide_eq_true_eq, UInt32.le_iff_toNat_le] at this
  simp only [isdigit, Bool.and_eq_true, decide_eq_true_eq, Char.toNat]
  exact this

theorem natStr_ne_nil (n : Nat) : natStr n ≠ [] := Nat.toDigits_ne_nil

theorem natStr_val (n : Nat) : decVal (natStr n) = n := by
  have h := Nat.ofDigitChars_ten_toDigits (n := n)
  have e : ∀ (l : Str) (k : Nat), Nat.ofDigitChars 10 l k =
      l.foldl (fun n c => n * 10 + (c.toNat - '0'.toNat)) k := by
    intro l
    induction l with
    | nil => intro k; simp
    | cons c l ih => intro k; rw [Nat.ofDigitChars_cons, ih, Nat.mul_comm]; rfl
  rw [e] at h
  exact h

theorem natStr_head (n : Nat) (h : (natStr n).head? = some '0') : natStr n = ['0'] := by
  unfold natStr at *
  induction n using Nat.strongRecOn with
  | _ n ih =>
    rcases Nat.lt_or_ge n 10 with hn | hn
    · rw [Nat.toDigits_of_lt_base hn] at h ⊢
      have : n.digitChar = '0' := by simpa using h
      rw [this]
    · rw [Nat.toDigits_of_base_le (by decide) hn] at h
      have h' : (Nat.toDigits 10 (n / 10)).head? = some '0' := by
        cases hd : Nat.toDigits 10 (n / 10) with
        | nil => exact absurd hd Nat.toDigits_ne_nil
        | cons a l => rw [hd] at h; simpa using h
      have h2 := ih (n / 10) (by omega) h'
      have h3 := natStr_val (n / 10)
      unfold natStr at h3
      rw [h2] at h3
      have : (n / 10) = 0 := by rw [← h3]; rfl
      omega

theorem natStr_decimal (n : Nat) : Decimal n (natStr n) :=
  ⟨⟨natStr_ne_nil n, fun _ h => natStr_digits h⟩, natStr_val n, natStr_head n⟩

theorem natStr_inj {m n : Nat} (h : natStr m = natStr n) : m = n := by
  rw [← natStr_val m, h, natStr_val]

/-- Digits before a character that is no digit are determined by the text. -/
theorem digits_split {a b x y : Str} {c d : Char} (ha : ∀ c ∈ a, isdigit c = true)
    (hb : ∀ c ∈ b, isdigit c = true) (hc : isdigit c = false) (hd : isdigit d = false)
    (h : a ++ c :: x = b ++ d :: y) : a = b ∧ c = d ∧ x = y := by
  induction a generalizing b with
  | nil =>
    cases b with
    | nil => simpa using h
    | cons e b =>
      simp only [List.nil_append, List.cons_append, List.cons.injEq] at h
      rw [h.1] at hc
      rw [hb e (by simp)] at hc; cases hc
  | cons e a ih =>
    cases b with
    | nil =>
      simp only [List.nil_append, List.cons_append, List.cons.injEq] at h
      rw [← h.1, ha e (by simp)] at hd; cases hd
    | cons f b =>
      simp only [List.cons_append, List.cons.injEq] at h
      obtain ⟨i1, i2⟩ := ih (fun c hc => ha c (by simp [hc])) (fun c hc => hb c (by simp [hc])) h.2
      exact ⟨by rw [h.1, i1], i2⟩

/-- The same at the end of a text. -/
theorem digits_split_end {a b x y : Str} {c d : Char} (ha : ∀ c ∈ a, isdigit c = true)
    (hb : ∀ c ∈ b, isdigit c = true) (hc : isdigit c = false) (hd : isdigit d = false)
    (h : x ++ c :: a = y ++ d :: b) : a = b ∧ c = d ∧ x = y := by
  have h' := congrArg List.reverse h
  simp only [List.reverse_append, List.reverse_cons, List.append_assoc, List.singleton_append] at h'
  obtain ⟨h1, h2, h3⟩ := digits_split (fun c h => ha c (by simpa using h))
    (fun c h => hb c (by simpa using h)) hc hd h'
  exact ⟨by simpa using h1, h2, by simpa using h3⟩

/-- C44, errors with a file name: `file:line:column: vimlparser: message`, numbers in decimal. -/
theorem C44_file (fn msg : Str) (line col : Nat) (h : fn ≠ []) :
    ∃ l c, Decimal line l ∧ Decimal col c ∧
      errString fn line col msg = fn ++ [':'] ++ l ++ [':'] ++ c ++ cs!": vimlparser: " ++ msg := by
  refine ⟨_, _, natStr_decimal line, natStr_decimal col, ?_⟩
  simp [errString, h]

/-- C44, errors without a file name: `vimlparser: message: line L col C`. -/
theorem C44_no_file (msg : Str) (line col : Nat) :
    ∃ l c, Decimal line l ∧ Decimal col c ∧
      errString [] line col msg = cs!"vimlparser: " ++ msg ++ cs!": line " ++ l ++ cs!" col " ++ c := by
  refine ⟨_, _, natStr_decimal line, natStr_decimal col, ?_⟩
  simp [errString]

/-- C44, the text of an error determines line, column and message (for a given file name). -/
theorem C44_error_injective (fn msg msg' : Str) (line col line' col' : Nat)
    (h : errString fn line col msg = errString fn line' col' msg') :
    line = line' ∧ col = col' ∧ msg = msg' := by
  unfold errString at h
  split at h
  · simp only [List.append_assoc, List.append_cancel_left_eq, List.cons_append, List.nil_append,
      List.cons.injEq, true_and] at h
    obtain ⟨h1, -, h2⟩ := digits_split (fun _ h => natStr_digits h) (fun _ h => natStr_digits h)
      (by decide) (by decide) h
    obtain ⟨h3, -, h4⟩ := digits_split (fun _ h => natStr_digits h) (fun _ h => natStr_digits h)
      (by decide) (by decide) h2
    refine ⟨natStr_inj h1, natStr_inj h3, ?_⟩
    simpa using h4
  · have h' : (cs!"vimlparser: " ++ msg ++ cs!": line " ++ natStr line ++ cs!" col") ++ ' ' :: natStr col =
        (cs!"vimlparser: " ++ msg' ++ cs!": line " ++ natStr line' ++ cs!" col") ++ ' ' :: natStr col' := by
      simpa using h
    obtain ⟨h1, -, h2⟩ := digits_split_end (fun _ h => natStr_digits h) (fun _ h => natStr_digits h)
      (by decide) (by decide) h'
    have h3 := List.append_cancel_right h2
    have h3' : (cs!"vimlparser: " ++ msg ++ cs!": line") ++ ' ' :: natStr line =
        (cs!"vimlparser: " ++ msg' ++ cs!": line") ++ ' ' :: natStr line' := by simpa using h3
    obtain ⟨h4, -, h5⟩ := digits_split_end (fun _ h => natStr_digits h) (fun _ h => natStr_digits h)
      (by decide) (by decide) h3'
    refine ⟨natStr_inj h4, natStr_inj h1, ?_⟩
    have h6 := List.append_cancel_right h5
    simpa using h6

/-- C44, positions: `file:line:column`, or `line:column` without a file name. -/
theorem C44_pos (q : Ast.Pos) :
    ∃ l c, Decimal q.line l ∧ Decimal q.column c ∧
      q.str = (if q.filename = [] then [] else q.filename ++ [':']) ++ l ++ [':'] ++ c := by
  refine ⟨_, _, natStr_decimal q.line, natStr_decimal q.column, ?_⟩
  unfold Ast.Pos.str
  by_cases h : q.filename = [] <;> simp [h]

/-- C44, the text of a position determines file name, line and column. -/
theorem C44_pos_injective (p q : Ast.Pos) (h : p.str = q.str) :
    p.filename = q.filename ∧ p.line = q.line ∧ p.column = q.column := by
  unfold Ast.Pos.str at h
  have h' : ((if p.filename ≠ [] then p.filename ++ cs!":" else []) ++ natStr p.line) ++ ':' :: natStr p.column =
      ((if q.filename ≠ [] then q.filename ++ cs!":" else []) ++ natStr q.line) ++ ':' :: natStr q.column := by
    simpa using h
  obtain ⟨h1, -, h2⟩ := digits_split_end (fun _ h => natStr_digits h) (fun _ h => natStr_digits h)
    (by decide) (by decide) h'
  have dig : ∀ (fn : Str) (m n : Nat), fn ++ ':' :: natStr m ≠ natStr n := by
    intro fn m n e
    have := natStr_digits (n := n) (c := ':') (by rw [← e]; simp)
    simp [isdigit] at this
  by_cases hp : p.filename = [] <;> by_cases hq : q.filename = []
  · simp [hp, hq] at h2 ⊢
    exact ⟨natStr_inj h2, natStr_inj h1⟩
  · simp [hp, hq] at h2
    exact (dig _ _ _ h2.symm).elim
  · simp [hp, hq] at h2
    exact (dig _ _ _ h2).elim
  · have h2' : p.filename ++ ':' :: natStr p.line = q.filename ++ ':' :: natStr q.line := by
      simpa [hp, hq] using h2
    obtain ⟨h3, -, h4⟩ := digits_split_end (fun _ h => natStr_digits h) (fun _ h => natStr_digits h)
      (by decide) (by decide) h2'
    exact ⟨h4, natStr_inj h3, natStr_inj h1⟩

example : errString cs!"a:1" 12 3 cs!"E15: x" = cs!"a:1:12:3: vimlparser: E15: x" ∧
    errString [] 12 3 cs!"E15: x" = cs!"vimlparser: E15: x: line 12 col 3" ∧
    (⟨0, 12, 3, cs!"f.vim"⟩ : Ast.Pos).str = cs!"f.vim:12:3" ∧
    (⟨0, 12, 3, []⟩ : Ast.Pos).str = cs!"12:3" := by decide +kernel

/-! ### C36: escaping -/

/-- Reading back escaped text: a backslash stands for the next character. -/
def unescape : Str → Str
  | '\\' :: c :: r => c :: unescape r
  | c :: r => c :: unescape r
  | [] => []

theorem unescape_plain {c : Char} (h : c ≠ '\\') (r : Str) : unescape (c :: r) = c :: unescape r := by
  rw [unescape.eq_def]
  split
  · rename_i heq; simp only [List.cons.injEq] at heq; exact absurd heq.1 h
  · rename_i heq; simp only [List.cons.injEq] at heq; rw [heq.1, heq.2]
  · rename_i heq; cases heq

theorem escapeQ_cons (c : Char) (r : Str) : Comp.escape cs!"\\\"" (c :: r) =
    (if c = '\\' ∨ c = '"' then ['\\', c] else [c]) ++ Comp.escape cs!"\\\"" r := by
  rw [Comp.escape]
  by_cases h1 : c = '\\'
  · subst h1; rfl
  · by_cases h2 : c = '"'
    · subst h2; rfl
    · simp [h1, h2]

/-- C36.  Text put into double quotes by the compiler can be read back, so the form determines the text; and it
is a well-formed quoted string: the quotes that delimit it are the only ones that are not escaped. -/
theorem C36_escape (s : Str) : unescape (Comp.escape cs!"\\\"" s) = s ∧
    StringLit (['"'] ++ Comp.escape cs!"\\\"" s ++ ['"']) := by
  constructor
  · induction s with
    | nil => rfl
    | cons c s ih =>
      rw [escapeQ_cons]
      by_cases h : c = '\\' ∨ c = '"'
      · simp only [h, if_true, List.cons_append, List.nil_append]
        rw [unescape, ih]
      · have h1 : c ≠ '\\' := fun e => h (Or.inl e)
        simp only [h, if_false, List.cons_append, List.nil_append]
        rw [unescape_plain h1, ih]
  · refine Or.inl ⟨_, ?_, rfl⟩
    have : ∀ (s : Str) (p : Str), DBody p → DBody (p ++ Comp.escape cs!"\\\"" s) := by
      intro s
      induction s with
      | nil => intro p hp; simpa [Comp.escape] using hp
      | cons c s ih =>
        intro p hp
        rw [escapeQ_cons, ← List.append_assoc]
        refine ih _ ?_
        by_cases h : c = '\\' ∨ c = '"'
        · simp only [h, if_true]; exact .esc hp
        · simp only [h, if_false]
          exact .char hp (fun e => h (Or.inr e)) (fun e => h (Or.inl e))
    exact this s [] .nil

/-- C36, different texts have different escaped forms. -/
theorem C36_injective (s t : Str) (h : Comp.escape cs!"\\\"" s = Comp.escape cs!"\\\"" t) : s = t := by
  rw [← (C36_escape s).1, h, (C36_escape t).1]

/-- C36, the internal compiler escapes in the same way. -/
theorem C36_internal (s : Str) : Ref.escapeQ s = Comp.escape cs!"\\\"" s := by
  induction s with
  | nil => rfl
  | cons c s ih => rw [escapeQ_cons, Ref.escapeQ, ih]

/-- C36 fails for heredoc lines: a tab and the two characters `\t` compile to the same text, so two
different files have the same compiled form. -/
theorem C36_heredoc_not_injective :
    Comp.escape cs!"\n\t\r" ['\t'] = Comp.escape cs!"\n\t\r" ['\\', 't'] ∧
    (match parseFileLines false [] [cs!"let x =<< E", ['a', '\t'], cs!"E"],
        parseFileLines false [] [cs!"let x =<< E", ['a', '\\', 't'], cs!"E"] with
     | some ⟨some f, none⟩, some ⟨some g, none⟩ =>
       Comp.compileFile f == .text cs!"(let =<< x (heredoc (list) \"E\" (list \"a\\t\")))\n" &&
       Comp.compileFile g == .text cs!"(let =<< x (heredoc (list) \"E\" (list \"a\\t\")))\n"
     | _, _ => false) = true := by decide +kernel

example : Comp.escape cs!"\\\"" cs!"a\"b\\c" = cs!"a\\\"b\\\\c" ∧
    unescape cs!"a\\\"b\\\\c" = cs!"a\"b\\c" := by decide +kernel

/-! ### C37: operators -/

/-- All tokens. -/
def allToks : List Tok :=
  [.ILLEGAL, .EOF, .EOL, .SPACE, .OROR, .ANDAND, .EQEQ, .EQEQCI, .EQEQCS, .NEQ, .NEQCI, .NEQCS, .GT,
   .GTCI, .GTCS, .GTEQ, .GTEQCI, .GTEQCS, .LT, .LTCI, .LTCS, .LTEQ, .LTEQCI, .LTEQCS, .MATCH,
   .MATCHCI, .MATCHCS, .NOMATCH, .NOMATCHCI, .NOMATCHCS, .IS, .ISCI, .ISCS, .ISNOT, .ISNOTCI,
   .ISNOTCS, .PLUS, .MINUS, .DOT, .STAR, .SLASH, .PERCENT, .NOT, .QUESTION, .COLON, .POPEN, .PCLOSE,
   .SQOPEN, .SQCLOSE, .COPEN, .CCLOSE, .COMMA, .NUMBER, .BLOB, .SQUOTE, .DQUOTE, .OPTION, .IDENTIFIER,
   .ENV, .REG, .EQ, .OR, .SEMICOLON, .BACKTICK, .DOTDOTDOT, .SHARP, .ARROW, .STRING]

theorem allToks_complete (t : Tok) : t ∈ allToks := by cases t <;> decide

/-- C37, different tokens are spelt differently. -/
theorem C37_injective (a b : Tok) (h : a.str = b.str) : a = b := by
  have key : ∀ x ∈ allToks, ∀ y ∈ allToks, x.str = y.str → x = y := by decide +kernel
  exact key a (allToks_complete a) b (allToks_complete b) h

end Viml.Props
