/-
Specification of the errors of the tokenizer: where no token can be read, what the message is and where it points.
Nothing here refers to the tokenizer.
-/
import Verif.Spec.Lex

namespace Viml.Spec

/-- The characters other than letters, digits and white space that start a token. -/
def starters : Str := cs!"+-*/%?:()[]{},'\";`.<>=!#|&$@"

/-- A character that starts no token. -/
def NoToken (c : Char) : Prop :=
  iswhite c = false ∧ isdigit c = false ∧ iswordc1 c = false ∧ c ∉ starters

/-- The bytes of a blob literal up to `r`, where a digit is followed by a character that is no digit. -/
inductive BlobOdd : Str → List Cell → Prop
  | stop (a b : Char) (r : List Cell) : headSym r = .ch a → headSym r.tail = .ch b → isxdigit a = true →
      isxdigit b = false → BlobOdd [] r
  | pair (a b : Char) (s : Str) (r : List Cell) : isxdigit a = true → isxdigit b = true →
      BlobOdd s r → BlobOdd (a :: b :: s) r
  | dot (s : Str) (r : List Cell) : (nextSym s r).is isxdigit = true → BlobOdd s r → BlobOdd ('.' :: s) r

/-- No token can be read from `r`: the error has the message `m` and the position `q`. -/
inductive LexErr (env : Env) : List Cell → Str → Pos → Prop
  | char (w : Str) (r r1 : List Cell) (c : Char) : Reads r w r1 → (∀ c ∈ w, iswhite c = true) →
      headSym r1 = .ch c → NoToken c → LexErr env r (cs!"unexpected character: " ++ [c]) (posOf env r1)
  | blob (w : Str) (r r1 : List Cell) (z : Char) (s : Str) (r2 : List Cell) (a b : Char) : Reads r w r1 →
      (∀ c ∈ w, iswhite c = true) → z = 'z' ∨ z = 'Z' → Reads r1 ('0' :: z :: s) r2 → nextSym s r2 ≠ .ch '.' →
      BlobOdd s r2 → headSym r2 = .ch a → headSym r2.tail = .ch b →
      LexErr env r (cs!"E973: Blob literal should have an even number of hex characters:" ++ [a, b]) (posOf env r2)

end Viml.Spec
