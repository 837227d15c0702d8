/-
Specification vocabulary for commands: what the text of modifiers, command lines, multi-line bodies
and heredocs looks like.  Nothing here refers to the parser.
-/
import Verif.Model.Stmt
import Verif.Spec.Token

namespace Viml.Spec

/-- All characters of `w` are blanks. -/
def White (w : Str) : Prop := ∀ c ∈ w, iswhite c = true

/-- Decimal value of a digit string. -/
def decVal (d : Str) : Nat := d.foldl (fun n c => n * 10 + (c.toNat - '0'.toNat)) 0

/-- The reader is at the end of a line. -/
def AtEnd (r : List Cell) : Prop := headSym r = .eol ∨ headSym r = .eof

/-- The reader is where a command ends: at the end of the line, a bar or a comment. -/
def AtStop (r : List Cell) : Prop := AtEnd r ∨ headSym r = .ch '|' ∨ headSym r = .ch '"'

/-- Vim's command modifiers with the length of their shortest abbreviation. -/
def vimModifiers : List (Str × Nat) := [
  (cs!"aboveleft", 3), (cs!"belowright", 3), (cs!"botright", 2), (cs!"browse", 3), (cs!"confirm", 4),
  (cs!"hide", 3), (cs!"keepalt", 5), (cs!"keepjumps", 5), (cs!"keepmarks", 3), (cs!"keeppatterns", 5),
  (cs!"leftabove", 5), (cs!"lockmarks", 3), (cs!"noautocmd", 3), (cs!"noswapfile", 3),
  (cs!"rightbelow", 6), (cs!"sandbox", 3), (cs!"silent", 3), (cs!"tab", 3), (cs!"topleft", 2),
  (cs!"unsilent", 3), (cs!"verbose", 4), (cs!"vertical", 4)]

/-- One command modifier read between two states: an optional count, an abbreviation of the name that
is not followed by a letter, white space, a bang. -/
inductive ModAt : List Cell → Modifier → List Cell → Prop
  | mk {r : List Cell} {d w k w' b : Str} {name : Str} {m : Nat} {bang count : Option Nat}
      {r1 r2 r3 r' : List Cell} :
      Reads r (d ++ w) r1 → (∀ c ∈ d, isdigit c = true) → (∀ c ∈ w, iswhite c = true) →
      (d = [] → w = []) → Reads r1 k r2 → (∀ c ∈ k, isalpha c = true) →
      (headSym r2).is isalpha = false → (name, m) ∈ vimModifiers → k <+: name → m ≤ k.length →
      Reads r2 w' r3 → (∀ c ∈ w', iswhite c = true) → (headSym r3).is iswhite = false →
      Reads r3 b r' →
      (name = cs!"silent" ∧ (bang = some 1 ∧ w' = [] ∧ b = cs!"!" ∨
          bang = some 0 ∧ b = [] ∧ ¬ headSym r2 = .ch '!') ∨
        name ≠ cs!"silent" ∧ bang = none ∧ b = []) →
      (count = if name = cs!"tab" then (if d = [] then none else some (decVal d))
        else if name = cs!"verbose" then (if d = [] then some 1 else some (decVal d)) else none) →
      ModAt r ⟨name, bang, count⟩ r'

/-- `:hide` with nothing after it: the end of the line, a bar or a comment follows directly. -/
def BareHide (r r' : List Cell) : Prop :=
  ModAt r ⟨cs!"hide", none, none⟩ r' ∧ AtStop r' ∧ ∃ v c, Reads r (v ++ [c]) r' ∧ iswhite c = false

/-- Modifiers of a command, up to the first text that is none.  A bare `:hide` is read but not
recorded. -/
inductive Mods : List Cell → List Modifier → List Cell → Prop
  | nil {r : List Cell} : (∀ m r', ¬ ModAt r m r') → Mods r [] r
  | hide {r r' : List Cell} : BareHide r r' → Mods r [] r'
  | cons {r : List Cell} {m : Modifier} {r1 : List Cell} {ms : List Modifier} {r' : List Cell} :
      ModAt r m r1 → ¬ BareHide r r1 → Mods r1 ms r' → Mods r (m :: ms) r'

/-- Addresses, offsets and separators of a line range that are recorded as written. -/
def RangeTok (t : Str) : Prop :=
  t ∈ [cs!".", cs!"$", cs!"%", cs!"*", cs!";", cs!",", cs!"\\&", cs!"\\?", cs!"\\/"] ∨
  (∃ c, t = ['\'', c]) ∨
  ∃ s d, t = s ++ d ∧ t ≠ [] ∧ (s = [] ∨ s = ['+'] ∨ s = ['-']) ∧ ∀ c ∈ d, isdigit c = true

/-- The text of a line range and what is recorded of it: blanks are skipped, patterns lose their
delimiters (the second one may be missing), and a quote without a mark after it is dropped. -/
inductive RangeText : Str → List Str → Prop
  | nil : RangeText [] []
  | skip {v w : Str} {ts : List Str} : RangeText v ts → White w → RangeText (v ++ w) ts
  | quote {v : Str} {ts : List Str} : RangeText v ts → RangeText (v ++ ['\'']) ts
  | tok {v t : Str} {ts : List Str} : RangeText v ts → RangeTok t → RangeText (v ++ t) (ts ++ [t])
  | pat {v p e : Str} {d : Char} {ts : List Str} : RangeText v ts → d = '/' ∨ d = '?' → e = [d] ∨ e = [] →
      RangeText (v ++ d :: p ++ e) (ts ++ [p])

/-- Whole lines with their line ends. -/
inductive Lines : List Cell → List Str → List Cell → Prop
  | nil (r : List Cell) : Lines r [] r
  | cons {r : List Cell} {l : Str} {e : Cell} {r1 : List Cell} {ls : List Str} {r' : List Cell} :
      Reads r l (e :: r1) → e.c = none → Lines r1 ls r' → Lines r (l :: ls) r'

/-- Lines up to the end marker `m`, which is included, or to the end of the input. -/
def LinesTo (m : Str) (r : List Cell) (ls : List Str) (r' : List Cell) : Prop :=
  (Lines r ls r' ∧ r' = [] ∧ m ∉ ls) ∨
  ∃ ls' r1, ls = ls' ++ [m] ∧ Lines r ls' r1 ∧ m ∉ ls' ∧ Reads r1 m r' ∧ AtEnd r'

/-- The end marker of a script: what follows `<<` and white space on the command line, or a dot. -/
def Marker (line m : Str) : Prop :=
  ∃ pre w x, line = pre ++ cs!"<<" ++ w ++ x ∧ (∀ c ∈ w, iswhite c = true) ∧
    (∀ c, x.head? = some c → iswhite c = false) ∧ m = if x = [] then ['.'] else x

/-- The command line `line` at `r` and the following lines up to the marker `m`, which are joined
by line feeds to `s`. -/
def BlockAt (r : List Cell) (line m s : Str) (r' : List Cell) : Prop :=
  ∃ e r1 ls, Reads r line (e :: r1) ∧ e.c = none ∧ LinesTo m r1 ls r' ∧
    s = List.intercalate ['\n'] (line :: ls)

/-- What follows the text of a raw command: blanks, then the end of the line, a bar, a comment or a
line feed character. -/
def RawEnd (r : List Cell) : Prop :=
  ∃ w r', Reads r w r' ∧ White w ∧ (AtStop r' ∨ headSym r' = .ch '\n')

/-- A command name with bang and blanks: `t` abbreviates the full name `name` and is at least `minlen`
characters long. -/
def NameAt (r : List Cell) (name : Str) (minlen : Nat) (bang : Bool) (r' : List Cell) : Prop :=
  ∃ t b w, Reads r (t ++ b ++ w) r' ∧ t ≠ [] ∧ t <+: name ∧ minlen ≤ t.length ∧ (b = [] ∨ b = ['!']) ∧
    (bang = true → b = ['!']) ∧ White w

/-- The end of a command: white space, then the end of the line, a bar or a comment. -/
inductive TrailAt : List Cell → List Cell → Prop
  | eof : TrailAt [] []
  | eol {r r1 : List Cell} {w : Str} : Reads r w r1 → White w → headSym r1 = .eol → TrailAt r r1.tail
  | comment {r r1 : List Cell} {w s : Str} : Reads r (w ++ '"' :: s) r1 → White w →
      headSym r1 = .eol → TrailAt r r1.tail
  | bar {r r1 : List Cell} {w : Str} : Reads r w r1 → White w → headSym r1 = .ch '|' →
      TrailAt r r1.tail

/-- Flags (words with a lower case first letter, with their positions) and end marker after `=<<`. -/
inductive HHead (env : Env) : List Cell → List (Pos × Str) → Str → List Cell → Prop
  | marker {r r1 r' : List Cell} {w op : Str} : Reads r w r1 → White w → Reads r1 op r' →
      Many1 iswordc op → (headSym r').is iswordc = false →
      (∀ c, op.head? = some c → islower c = false) → HHead env r [] op r'
  | flag {r r1 r2 r' : List Cell} {w f op : Str} {fs : List (Pos × Str)} : Reads r w r1 → White w →
      Reads r1 f r2 → Many1 iswordc f → (headSym r2).is iswordc = false →
      (∀ c, f.head? = some c → islower c = true) → HHead env r2 fs op r' →
      HHead env r ((posOf env r1, f) :: fs) op r'

/-- Lines of a heredoc: each with its position, up to the end marker. -/
inductive HLines (env : Env) (m : Str) : List Cell → List (Pos × Str) → List Cell → Prop
  | done {r r' : List Cell} : Reads r m r' → AtEnd r' → HLines env m r [] r'
  | cons {r : List Cell} {l : Str} {e : Cell} {r1 : List Cell} {ls : List (Pos × Str)}
      {r' : List Cell} : Reads r l (e :: r1) → e.c = none → l ≠ m → HLines env m r1 ls r' →
      HLines env m r ((posOf env r, l) :: ls) r'

/-- A heredoc from `=<<` on: flags and marker, rest of the line, lines up to the marker. -/
def HereAt (env : Env) (r : List Cell) (fl : List (Pos × Str)) (m : Str) (body : List (Pos × Str))
    (r' : List Cell) : Prop :=
  ∃ r1 r2 r3, Reads r cs!"=<<" r1 ∧ HHead env r1 fl m r2 ∧ TrailAt r2 r3 ∧ HLines env m r3 body r'

/-- A pattern after its delimiter `c`, up to the delimiter or the end of the line. -/
def PatAt (r : List Cell) (s : Str) (r' : List Cell) : Prop :=
  ∃ c, Reads r (c :: s ++ [c]) r' ∨ Reads r (c :: s) r' ∧ AtEnd r'

/-- Attribute words after the parameters of a function. -/
inductive AttrWords : List Cell → List Str → List Cell → Prop
  | nil {r : List Cell} : AttrWords r [] r
  | cons {r r1 r2 r' : List Cell} {w k : Str} {ks : List Str} : Reads r w r1 → White w → Reads r1 k r2 →
      Many1 isalpha k → AttrWords r2 ks r' → AttrWords r (k :: ks) r'

/-- Assignment operators. -/
def letOps : List Str :=
  [cs!"=", cs!"+=", cs!"-=", cs!".=", cs!"..=", cs!"*=", cs!"/=", cs!"%="]

end Viml.Spec
