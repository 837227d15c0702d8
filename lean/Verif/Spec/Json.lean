/-
What properties C58 and C60 say: the grammar of JSON texts (RFC 8259), restricted to non-negative integers as numbers.
`JText v s` says that `s` is a text of the value `v`.  Nothing here refers to the encoder.
-/
import Verif.Model.Json
import Verif.Spec.Command

namespace Viml.Spec

/-- White space between tokens. -/
def JWhite (s : Str) : Prop := ∀ c ∈ s, c = ' ' ∨ c = '\t' ∨ c = '\n' ∨ c = '\r'

/-- Value of a hexadecimal digit, upper or lower case. -/
def hexVal (c : Char) : Option Nat :=
  if 48 ≤ c.toNat ∧ c.toNat ≤ 57 then some (c.toNat - 48)
  else if 97 ≤ c.toNat ∧ c.toNat ≤ 102 then some (c.toNat - 87)
  else if 65 ≤ c.toNat ∧ c.toNat ≤ 70 then some (c.toNat - 55)
  else none

/-- Value of four hexadecimal digits. -/
def Hex4 (n : Nat) (a b c d : Char) : Prop :=
  ∃ w x y z, hexVal a = some w ∧ hexVal b = some x ∧ hexVal c = some y ∧ hexVal d = some z ∧
    n = ((w * 16 + x) * 16 + y) * 16 + z

/-- The escapes of one letter. -/
def shortEscape : Char → Option Char
  | '"' => some '"' | '\\' => some '\\' | '/' => some '/' | 'b' => some '\x08' | 'f' => some '\x0c'
  | 'n' => some '\n' | 'r' => some '\r' | 't' => some '\t' | _ => none

/-- The ways to write one character of a string. -/
inductive JChar : Char → Str → Prop
  | plain {c} : 32 ≤ c.toNat → c ≠ '"' → c ≠ '\\' → JChar c [c]
  | short {c e} : shortEscape e = some c → JChar c ['\\', e]
  | hex {c a b d e} : Hex4 c.toNat a b d e → JChar c ['\\', 'u', a, b, d, e]
  | pair {c h l a b d e a' b' d' e'} : Hex4 h a b d e → Hex4 l a' b' d' e' → 0xD800 ≤ h → h < 0xDC00 → 0xDC00 ≤ l →
      l < 0xE000 → c.toNat = 0x10000 + (h - 0xD800) * 1024 + (l - 0xDC00) →
      JChar c ['\\', 'u', a, b, d, e, '\\', 'u', a', b', d', e']

/-- The text of a string between its quotes. -/
inductive JChars : Str → Str → Prop
  | nil : JChars [] []
  | cons {c t cs s} : JChar c t → JChars cs s → JChars (c :: cs) (t ++ s)

/-- The text of a string. -/
def JString (v : Str) (s : Str) : Prop := ∃ b, JChars v b ∧ s = '"' :: (b ++ ['"'])

/-- Decimal notation without leading zeros. -/
def JNumber (n : Nat) (s : Str) : Prop :=
  s ≠ [] ∧ (∀ c ∈ s, isdigit c = true) ∧ decVal s = n ∧ (s.head? = some '0' → s = ['0'])

mutual
/-- The texts of a value. -/
def JText : Json → Str → Prop
  | .null, s => s = cs!"null"
  | .bool b, s => s = if b then cs!"true" else cs!"false"
  | .num n, s => JNumber n s
  | .str v, s => JString v s
  | .arr l, s => ∃ b, JItems l b ∧ s = '[' :: (b ++ [']'])
  | .obj l, s => ∃ b, JMembers l b ∧ s = '{' :: (b ++ ['}'])
/-- The text between the brackets of an array. -/
def JItems : List Json → Str → Prop
  | [], s => JWhite s
  | [v], s => ∃ a t b, JWhite a ∧ JText v t ∧ JWhite b ∧ s = a ++ (t ++ b)
  | v :: w :: vs, s => ∃ a t b u, JWhite a ∧ JText v t ∧ JWhite b ∧ JItems (w :: vs) u ∧ s = a ++ (t ++ (b ++ ',' :: u))
/-- The text between the braces of an object. -/
def JMembers : List (Str × Json) → Str → Prop
  | [], s => JWhite s
  | [(k, v)], s => ∃ a t b, JWhite a ∧ JString k t ∧ JWhite b ∧ ∃ a' t' b', JWhite a' ∧ JText v t' ∧ JWhite b' ∧
      s = a ++ (t ++ (b ++ ':' :: (a' ++ (t' ++ b'))))
  | (k, v) :: w :: vs, s => ∃ a t b, JWhite a ∧ JString k t ∧ JWhite b ∧ ∃ a' t' b' u, JWhite a' ∧ JText v t' ∧
      JWhite b' ∧ JMembers (w :: vs) u ∧ s = a ++ (t ++ (b ++ ':' :: (a' ++ (t' ++ (b' ++ ',' :: u)))))
end

/-- There are `n` arrays or objects one inside the other. -/
inductive JNested : Nat → Json → Prop
  | zero {v} : JNested 0 v
  | emptyArr {l} : JNested 1 (.arr l)
  | emptyObj {l} : JNested 1 (.obj l)
  | arr {n v l} : v ∈ l → JNested n v → JNested (n + 1) (.arr l)
  | obj {n k v l} : (k, v) ∈ l → JNested n v → JNested (n + 1) (.obj l)

/-- A value inside another one, or itself. -/
inductive JInside : Json → Json → Prop
  | self {v} : JInside v v
  | arr {v w l} : w ∈ l → JInside v w → JInside v (.arr l)
  | obj {v k w l} : (k, w) ∈ l → JInside v w → JInside v (.obj l)

/-- The characters that may occur in output: a line feed, and what is neither a control character nor one of `<`, `>`,
`&` and the line and paragraph separators of Unicode. -/
def JSafe (c : Char) : Prop :=
  c = '\n' ∨ (32 ≤ c.toNat ∧ c ∉ ['<', '>', '&'] ∧ c.toNat ≠ 0x2028 ∧ c.toNat ≠ 0x2029)

instance (c : Char) : Decidable (JSafe c) := by unfold JSafe; infer_instance

end Viml.Spec
