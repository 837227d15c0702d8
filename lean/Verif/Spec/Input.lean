/-
What properties C01-C04, C39, C40 and C72 say, independently of the parser: physical and logical lines,
places of characters, and UTF-8 text.  Nothing here refers to the model of the reader.
-/
import Verif.Model.Basic

namespace Viml.Spec

/-- White space in the sense of the Go regular expression `\s`. -/
def blank (c : Char) : Bool := c ∈ [' ', '\t', '\n', '\x0c', '\r']

/-- The part of a physical line after leading blanks and a backslash; `none` if the line's first
non-blank character is not a backslash. -/
def afterBackslash (l : Str) : Option Str :=
  match l.dropWhile blank with
  | '\\' :: rest => some rest
  | _ => none

/-- Collect logical lines; `cur` is the logical line being extended. -/
def joinFrom (cur : Str) : List Str → List Str
  | [] => [cur]
  | l :: ls =>
    match afterBackslash l with
    | some rest => joinFrom (cur ++ rest) ls
    | none => cur :: joinFrom l ls

/-- The logical lines of a file. -/
def logicalLines : List Str → List Str
  | [] => []
  | l :: ls => joinFrom l ls

/-- Number of bytes of the UTF-8 encoding of a text. -/
def bytes (l : Str) : Nat := (l.flatMap String.utf8EncodeChar).length

/-- A place in a list of physical lines: line `lines[n]` is `pre ++ c :: post`. -/
structure Place (lines : List Str) where
  n : Nat
  pre : Str
  c : Char
  post : Str
  ok : lines[n]? = some (pre ++ c :: post)

namespace Place
variable {lines : List Str}

/-- The line the place is on. -/
def line (q : Place lines) : Str := q.pre ++ q.c :: q.post

/-- A place is on a continuation line if its line is not the first one and starts with blanks and a
backslash. -/
def onCont (q : Place lines) : Prop := q.n ≠ 0 ∧ (afterBackslash q.line).isSome

/-- A place is visible to the parser unless it belongs to the leading blanks and backslash of a
continuation line. -/
def visible (q : Place lines) : Prop := q.onCont → '\\' ∈ q.pre

end Place

/-- The bytes of a file with LF line ends that consists of the given lines. -/
def fileBytes (lines : List Str) : List UInt8 :=
  lines.flatMap fun l => l.flatMap String.utf8EncodeChar ++ [10]

/-- The text of a line without a carriage return at its end. -/
def chopCR (l : List UInt8) : List UInt8 :=
  if [13] <:+ l then l.take (l.length - 1) else l

/-- The lines of a byte sequence written as `segs` each followed by LF, and then `last`; `last` is
a line only if it is not empty. -/
def linesOf (segs : List (List UInt8)) (last : List UInt8) : List (List UInt8) :=
  segs ++ if last = [] then [] else [last]

/-- `line` and `col` (1-based, in bytes) name a place of the file: before some character of a line, at
its end, or the end of file, which is column 0 of the line after the last one. -/
def SrcPos (lines : List Str) (line col : Nat) : Prop :=
  (∃ n pre post, lines[n]? = some (pre ++ post) ∧ line = n + 1 ∧ col = 1 + bytes pre) ∨
  (line = lines.length + 1 ∧ col = 0)

/-- Lexicographic order of (line, column). -/
def lexLt (l₁ c₁ l₂ c₂ : Nat) : Prop := l₁ < l₂ ∨ (l₁ = l₂ ∧ c₁ < c₂)

/-- LF or CRLF. -/
def lineEnd (crlf : Bool) : List UInt8 := if crlf then [13, 10] else [10]

/-- Lines, each with its own kind of line end. -/
def withEnds (ls : List (List UInt8 × Bool)) : List UInt8 := ls.flatMap fun l => l.1 ++ lineEnd l.2

/-- A line of a file: it contains no LF, does not end with CR, and is shorter than 65535 bytes. -/
def FileLine (l : List UInt8) : Prop := 10 ∉ l ∧ ¬ [13] <:+ l ∧ l.length < 65535

end Viml.Spec
