/-
Property C11: tokens of the expression tokenizer tile the source line.
`tokGet env r` is `ExprTokenizer.Get` on the rest `r` of the input.
-/
import Verif.Lemmas.Lex
import Verif.Model.Input

namespace Viml.Props
open Viml Viml.Spec

/-- C11, one token.  Anywhere in any input, reading a token skips white space and then takes exactly
the text of the token, which has the shape of its type; or reports the end of the line or of the
input; or fails with an error at a position of the input. -/
theorem C11_token (lines : List Str) (r : List Cell) (h : r <:+ (mkEnv lines).buf) :
    (∃ t r', tokGet (mkEnv lines) r = .ok t r' ∧ TokAt (mkEnv lines) r t r') ∨
    (∃ msg q, tokGet (mkEnv lines) r = .fail (.err msg q) ∧ PosOK (mkEnv lines) q) := by
  cases ht : tokGet (mkEnv lines) r with
  | ok t r' => exact Or.inl ⟨t, r', rfl, tokGet_at (mkEnv_ok lines) h ht⟩
  | fail e =>
    have := tokGet_err (mkEnv_ok lines) h ht
    cases e with
    | err msg q => exact Or.inr ⟨msg, q, rfl, this⟩
    | _ => exact this.elim

/-- C11, exactly.  Anywhere in any input, which token is read and where the reader stands afterwards is
what the lexical specification says (`Lexeme`: longest match with its exceptions); in particular the
token is unique, and there is an error exactly where no lexeme starts. -/
theorem C11_exact (lines : List Str) (r : List Cell) (h : r <:+ (mkEnv lines).buf) (t : Token)
    (r' : List Cell) : tokGet (mkEnv lines) r = .ok t r' ↔ Lex (mkEnv lines) r t r' :=
  tokGet_iff (mkEnv_ok lines) h t r'

/-- Longest match: `is` ends before a character that cannot belong to a word, `1.e` is not a float,
`&g:` takes the scope, `0x` without digits is the number `0`. -/
example : (match tokGet (mkEnv [cs!"is:x"]) (mkEnv [cs!"is:x"]).buf,
      tokGet (mkEnv [cs!"isn:x"]) (mkEnv [cs!"isn:x"]).buf, tokGet (mkEnv [cs!"1.e3"]) (mkEnv [cs!"1.e3"]).buf,
      tokGet (mkEnv [cs!"&g:ic:"]) (mkEnv [cs!"&g:ic:"]).buf, tokGet (mkEnv [cs!"0xg"]) (mkEnv [cs!"0xg"]).buf with
    | .ok a _, .ok b _, .ok c _, .ok d _, .ok e _ => [a.value, b.value, c.value, d.value, e.value]
    | _, _, _, _, _ => []) = [cs!"is", cs!"isn:x", cs!"1", cs!"&g:ic", cs!"0"] := by decide +kernel

/-- Tokens read one after the other. -/
inductive Tokens (env : Env) : List Cell → List Token → List Cell → Prop
  | nil (r : List Cell) : Tokens env r [] r
  | cons {r r1 r' : List Cell} {t : Token} {ts : List Token} : tokGet env r = .ok t r1 →
      Tokens env r1 ts r' → Tokens env r (t :: ts) r'

/-- C11, tiling.  The text between the first and the last of consecutive tokens of a line is their
texts, each preceded by white space only: nothing is skipped, read twice or reordered. -/
theorem C11_tiling (lines : List Str) (r r' : List Cell) (ts : List Token)
    (h : r <:+ (mkEnv lines).buf) (ht : Tokens (mkEnv lines) r ts r')
    (hl : ∀ t ∈ ts, t.ty ≠ .eof ∧ t.ty ≠ .eol) :
    ∃ ws : List Str, ws.length = ts.length ∧ (∀ w ∈ ws, ∀ c ∈ w, iswhite c = true) ∧
      Reads r (List.zipWith (fun w (t : Token) => w ++ t.value) ws ts).flatten r' := by
  induction ht with
  | nil r => exact ⟨[], rfl, by simp, Reads.nil r⟩
  | cons h1 _ ih =>
    have ha := tokGet_at (mkEnv_ok lines) h h1
    obtain ⟨n1, n2⟩ := hl _ (List.mem_cons_self ..)
    obtain ⟨w, q, k1, k2, _, k4, _⟩ := ha.at_pos n1 n2
    obtain ⟨ws, i1, i2, i3⟩ := ih (ha.suf h) fun t ht => hl t (List.mem_cons_of_mem _ ht)
    refine ⟨w :: ws, by simp [i1], ?_, ?_⟩
    · rw [List.forall_mem_cons]; exact ⟨k2, i2⟩
    · simp only [List.zipWith_cons_cons, List.flatten_cons, List.append_assoc]
      exact k1.append (k4.append i3)

/-- C11, progress: reading a token shortens the rest of the input unless there is none. -/
theorem C11_progress (lines : List Str) (r r' : List Cell) (t : Token)
    (h : r <:+ (mkEnv lines).buf) (ht : tokGet (mkEnv lines) r = .ok t r') :
    r'.length < r.length ∨ (r = [] ∧ t.ty = .eof) := by
  have ha := tokGet_at (mkEnv_ok lines) h ht
  cases ha with
  | eof w r h1 h2 =>
    cases r with
    | nil => exact Or.inr ⟨rfl, rfl⟩
    | cons c r => exact Or.inl (by simp)
  | eol w r c r' h1 h2 h3 =>
    left
    have := h1.adv.length
    simp at this; omega
  | text w r r1 ty v r' k1 k2 k3 k4 k5 => exact Or.inl (k1.adv.trans_sadv (k3.sadv k4)).lt

/-- `n` tokens. -/
def readTokens (env : Env) : Nat → List Cell → Option (List Token × List Cell)
  | 0, r => some ([], r)
  | n + 1, r =>
    match tokGet env r with
    | .ok t r1 => (readTokens env n r1).map fun x => (t :: x.1, x.2)
    | .fail _ => none

theorem readTokens_tokens {env : Env} {n : Nat} {r : List Cell} {x : List Token × List Cell}
    (h : readTokens env n r = some x) : Tokens env r x.1 x.2 := by
  induction n generalizing r x with
  | zero => simp only [readTokens, Option.some.injEq] at h; subst h; exact .nil r
  | succ n ih =>
    simp only [readTokens] at h
    split at h
    · rename_i t r1 ht
      simp only [Option.map_eq_some_iff] at h
      obtain ⟨y, hy, rfl⟩ := h
      exact .cons ht (ih hy)
    · simp at h

/-- A line with operators, a register, white space and a float. -/
example : ∃ ts r', Tokens (mkEnv [cs!"@a  ==#1.5e-3 ||"]) (mkEnv [cs!"@a  ==#1.5e-3 ||"]).buf ts r' ∧
    ts.map Token.value = [cs!"@a", cs!"==#", cs!"1.5e-3", cs!"||"] := by
  have h : ((readTokens (mkEnv [cs!"@a  ==#1.5e-3 ||"]) 4 (mkEnv [cs!"@a  ==#1.5e-3 ||"]).buf).map
    fun x => x.1.map Token.value) = some [cs!"@a", cs!"==#", cs!"1.5e-3", cs!"||"] := by decide +kernel
  obtain ⟨x, h1, h2⟩ := Option.map_eq_some_iff.mp h
  exact ⟨x.1, x.2, readTokens_tokens h1, h2⟩

end Viml.Props
