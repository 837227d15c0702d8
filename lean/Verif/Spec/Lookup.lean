/-
Specification of command names: what text is the name of a command, and which command it stands for.
Everything is stated about the text of the line from the command on; nothing here refers to the parser.
-/
import Verif.Model.Commands
import Verif.Spec.Command

namespace Viml.Spec

/-- `s` does not start with a character satisfying `f`. -/
def StopsAt (f : Char → Bool) (s : Str) : Prop := ∀ c, s.head? = some c → f c = false

/-- What may follow `:s` for the `s` to be a command name of its own: the flags of `:substitute` that are not
the start of another command. -/
inductive SubFlags : Str → Prop
  | c {x y z : Char} : x ≠ 's' → x ≠ 'r' → y ≠ 'i' → z ≠ 'p' → SubFlags ['c', x, y, z]
  | g : SubFlags ['g']
  | i {x : Char} : x ≠ 'm' → x ≠ 'l' → x ≠ 'g' → SubFlags ['i', x]
  | bigI : SubFlags ['I']
  | r {x : Char} : x ≠ 'e' → SubFlags ['r', x]

/-- The line is `s` followed by flags. -/
def ShortSub (l : Str) : Prop := ∃ x, SubFlags x ∧ 's' :: x <+: l

/-- Abbreviations of `:delete` that may be followed by the flag `l` or `p`. -/
def deleteAbbrevs : List Str := [cs!"de", cs!"del", cs!"dele", cs!"delet", cs!"delete"]

/-- `w` is an abbreviation of `:delete` with a flag; `del` is not one. -/
def DeleteFlag (w : Str) : Prop :=
  w ≠ cs!"del" ∧ ∃ t c, w = t ++ [c] ∧ t ∈ deleteAbbrevs ∧ (c = 'l' ∨ c = 'p')

/-- The command name `name` is typed as `t`, and `s` is the rest of the line. -/
inductive NameOf : Str → Str → Str → Prop
  | k {s : Str} : NameOf cs!"k" cs!"k" s
  | sub {s : Str} : ShortSub ('s' :: s) → NameOf cs!"substitute" cs!"s" s
  | punct {c : Char} {s : Str} : c ∈ cs!"@*!=><&~#" → NameOf [c] [c] s
  | py {n s : Str} : cs!"py" <+: n → (∀ c ∈ n, isalnum c = true) → StopsAt isalnum s → NameOf n n s
  | delete {t s : Str} {c : Char} : DeleteFlag (t ++ [c]) → StopsAt isalpha s → NameOf t t (c :: s)
  | word {n s : Str} : n ≠ [] → (∀ c ∈ n, isalpha c = true) → StopsAt isalpha s → ¬ cs!"k" <+: n →
      ¬ ShortSub (n ++ s) → ¬ cs!"py" <+: n → ¬ DeleteFlag n → NameOf n n s

/-- `n` abbreviates the command `c`. -/
def Abbrev (n : Str) (c : Cmd) : Prop := n <+: c.name ∧ c.minlen ≤ n.length

/-- `c` is the first command of the table `T` that `n` abbreviates. -/
def FirstOf (T : List Cmd) (n : Str) (c : Cmd) : Prop :=
  ∃ a b, T = a ++ c :: b ∧ Abbrev n c ∧ ∀ x ∈ a, ¬ Abbrev n x

/-- The tables have the command `c` for the name `n`.  With the Neovim option the table of additional
commands comes first, and abbreviations of removed commands are not known at all. -/
def TableCmd (nv : Bool) (n : Str) (c : Cmd) : Prop :=
  if nv then
    (∀ x ∈ neovimRemovedCommands, ¬ Abbrev n x) ∧
      (FirstOf neovimAdditionalCommands n c ∨
        (∀ x ∈ neovimAdditionalCommands, ¬ Abbrev n x) ∧ FirstOf builtinCommands n c)
  else FirstOf builtinCommands n c

/-- Upper case letters. -/
def Upper (n : Str) : Prop := ∃ c s, n = c :: s ∧ 'A' ≤ c ∧ c ≤ 'Z'

/-- A name that is free for user commands: it starts with an upper case letter and is not the abbreviation of a
command other than `:Print`. -/
def UserWord (nv : Bool) (n : Str) : Prop := Upper n ∧ ∀ c, TableCmd nv n c → c.name = cs!"Print"

/-- The command a line starts with: its entry in the tables or user command, the text of the name, and the rest
of the line. -/
inductive CmdOf (nv : Bool) : Cmd → Str → Str → Prop
  | table {n t s : Str} {c : Cmd} : NameOf n t s → TableCmd nv n c → ¬ UserWord nv n → CmdOf nv c t s
  | user {a b s : Str} : (∀ c ∈ a, isalpha c = true) → StopsAt isalpha b → UserWord nv a →
      (∀ c ∈ b, isalnum c = true) → StopsAt isalnum s →
      CmdOf nv ⟨a ++ b, 0, [.USERCMD], cs!"parse_cmd_usercmd"⟩ (a ++ b) s

/-- `l` is the text from `r` to the end of the line. -/
def LineIs (r : List Cell) (l : Str) : Prop := ∃ e, Reads r l e ∧ AtEnd e

/-- The text starts with a name for a user command followed by a digit. -/
def DigitWord (nv : Bool) (l : Str) : Prop :=
  ∃ a d s, l = a ++ d :: s ∧ (∀ c ∈ a, isalpha c = true) ∧ UserWord nv a ∧ isdigit d = true

end Viml.Spec
