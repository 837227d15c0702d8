/-
From bytes to the reader buffer: vimlparser.go `readlines` and go/type.go `StringReader.__init__`.
-/
import Verif.Model.Prog

namespace Viml

/-! ### Splitting bytes into lines -/

/-- `bufio.MaxScanTokenSize`, the buffer bound of the default `bufio.Scanner`. -/
def maxTok : Nat := 65536

/-- `dropCR` of `bufio.ScanLines`: drop one trailing `\r`. -/
def dropCR (l : List UInt8) : List UInt8 :=
  if l.getLast? = some 13 then l.dropLast else l

/-- The scanner loop: `acc` is the current line, reversed.  When the scanner's buffer is full
(65536 bytes) and holds no line end, `Scan` returns false for good. -/
def scanLines (acc : List UInt8) : List UInt8 → List (List UInt8)
  | [] => if acc.isEmpty then [] else [dropCR acc.reverse]
  | b :: bs =>
    if b = 10 then dropCR acc.reverse :: scanLines [] bs
    else if acc.length + 1 ≥ maxTok then []
    else scanLines (b :: acc) bs

/-- `readlines`, vimlparser.go:88-95 (`bufio.NewScanner` with the default `ScanLines`; the error of
the scanner is ignored by the code).  Simplification: the `io.Reader` is a byte sequence, read
without I/O error. -/
def readlines (bs : List UInt8) : List (List UInt8) := scanLines [] bs

/-! ### Decoding a line: `for _, r := range line` -/

def isContByte (b : UInt8) : Bool := 0x80 ≤ b.toNat && b.toNat ≤ 0xBF
def inRange (lo hi : Nat) (b : UInt8) : Bool := lo ≤ b.toNat && b.toNat ≤ hi

/-- The Unicode replacement character, which Go yields for each invalid byte. -/
def replC : Char := Char.ofNat 0xFFFD

/-- `utf8.DecodeRune` on a non-empty byte sequence `b0 :: bs`: the rune and its width.  The accepted
byte ranges are those of the `first`/`acceptRanges` tables of package unicode/utf8; any other byte
yields U+FFFD with width 1. -/
def decodeRune (b0 : UInt8) (bs : List UInt8) : Char × Nat :=
  if b0.toNat < 0x80 then (Char.ofNat b0.toNat, 1)
  else match bs with
  | [] => (replC, 1)
  | b1 :: bs =>
    if inRange 0xC2 0xDF b0 && isContByte b1 then
      (Char.ofNat ((b0.toNat - 0xC0) * 64 + (b1.toNat - 0x80)), 2)
    else match bs with
    | [] => (replC, 1)
    | b2 :: bs =>
      if ((inRange 0xE0 0xE0 b0 && inRange 0xA0 0xBF b1) ||
          ((inRange 0xE1 0xEC b0 || inRange 0xEE 0xEF b0) && isContByte b1) ||
          (inRange 0xED 0xED b0 && inRange 0x80 0x9F b1)) && isContByte b2 then
        (Char.ofNat ((b0.toNat - 0xE0) * 4096 + (b1.toNat - 0x80) * 64 + (b2.toNat - 0x80)), 3)
      else match bs with
      | [] => (replC, 1)
      | b3 :: _ =>
        if ((inRange 0xF0 0xF0 b0 && inRange 0x90 0xBF b1) ||
            (inRange 0xF1 0xF3 b0 && isContByte b1) ||
            (inRange 0xF4 0xF4 b0 && inRange 0x80 0x8F b1)) && isContByte b2 && isContByte b3 then
          (Char.ofNat ((b0.toNat - 0xF0) * 262144 + (b1.toNat - 0x80) * 4096
            + (b2.toNat - 0x80) * 64 + (b3.toNat - 0x80)), 4)
        else (replC, 1)

/-- The `range` loop over a string: the first argument counts bytes of the current rune that are
still to be stepped over. -/
def decodeGo : Nat → List UInt8 → Str
  | _, [] => []
  | k + 1, _ :: bs => decodeGo k bs
  | 0, b :: bs => (decodeRune b bs).1 :: decodeGo ((decodeRune b bs).2 - 1) bs

def decodeUtf8 (bs : List UInt8) : Str := decodeGo 0 bs

/-! ### StringReader.__init__, go/type.go:189-234 -/

/-- `len(string(r))` -/
def runeLen (c : Char) : Nat := c.utf8Size

/-- `len` of the re-encoded line (go/type.go:204-205: `col += len(c)`). -/
def bytesLen : Str → Nat
  | [] => 0
  | c :: cs => runeLen c + bytesLen cs

/-- `viml_eqregh(line, "^\\s*\\\\")`, go/type.go:207. -/
def isCont : Str → Bool
  | [] => false
  | c :: cs => if c == '\\' then true else isSpaceRe c && isCont cs

/-- Inner loop of an ordinary line, go/type.go:200-206. The `i` field is filled in by `reindex`. -/
def lineCells (lnum : Nat) : Nat → Nat → Str → List Cell
  | _, _, [] => []
  | col, off, c :: cs =>
    ⟨some c, ⟨0, lnum, col + 1, off⟩⟩ :: lineCells lnum (col + runeLen c) (off + runeLen c) cs

/-- Inner loop of a continuation line, go/type.go:210-222: everything up to and including the first
backslash is skipped; the position literal leaves `offset` at its zero value. -/
def contCells (lnum : Nat) : Bool → Nat → Str → List Cell
  | _, _, [] => []
  | true, col, c :: cs => contCells lnum (c != '\\') (col + runeLen c) cs
  | false, col, c :: cs =>
    ⟨some c, ⟨0, lnum, col + 1, 0⟩⟩ :: contCells lnum false (col + runeLen c) cs

/-- Outer loop after the first physical line of a logical line has been stored, go/type.go:207-229.
`lnum` is the 0-based number of the physical line just stored, `col` its length in bytes. -/
def buildRest : List Str → Nat → Nat → Nat → List Cell
  | [], lnum, col, off => [⟨none, ⟨0, lnum + 1, col + 1, off⟩⟩]
  | l :: ls, lnum, col, off =>
    if isCont l then
      contCells (lnum + 2) true 0 l ++ buildRest ls (lnum + 1) (bytesLen l) (off + bytesLen l + 1)
    else
      ⟨none, ⟨0, lnum + 1, col + 1, off⟩⟩ ::
        (lineCells (lnum + 2) 0 (off + 1) l ++
          buildRest ls (lnum + 1) (bytesLen l) (off + 1 + bytesLen l))

/-- go/type.go:198-229 -/
def buildCells : List Str → List Cell
  | [] => []
  | l :: ls => lineCells 1 0 0 l ++ buildRest ls 0 (bytesLen l) (bytesLen l)

/-- `getpos` stores the reader index in the copied position, go/type.go:236-240. -/
def reindex : Nat → List Cell → List Cell
  | _, [] => []
  | n, c :: cs => ⟨c.c, { c.pos with i := n }⟩ :: reindex (n + 1) cs

/-- Total of `offset` after the outer loop: every line contributes its length plus one. -/
def totalLen : List Str → Nat
  | [] => 0
  | l :: ls => bytesLen l + 1 + totalLen ls

/-- `NewStringReader`, go/type.go:183-234, including the end-of-file position. -/
def mkEnv (lines : List Str) : Env :=
  let buf := reindex 0 (buildCells lines)
  ⟨buf, ⟨buf.length, lines.length + 1, 0, totalLen lines⟩⟩

/-- Bytes to reader. -/
def envOfBytes (bs : List UInt8) : Env := mkEnv ((readlines bs).map decodeUtf8)

end Viml
