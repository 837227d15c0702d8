/-
What property C79 says: lines may be joined with bars, and comments may follow commands.
-/
import Verif.Spec.Layout
import Verif.Spec.Note

namespace Viml.Spec

/-- The lines of two files that differ in their layout, in bars and line ends between commands, and, if `c`, in comments in
lines of their own and behind commands. -/
inductive Style (nv : Bool) (fn : Str) (c : Bool) : List Str → List Str → Prop
  | layout {ls ls'} : Layout nv fn (if c then Quiet else Blank) ls ls' → Style nv fn c ls ls'
  | bar {A n s l2 B x} : Between nv fn A → Between nv fn (A ++ [n ++ s]) → TableCmd nv n x → BarLine x s →
      CanJoin (n ++ s) l2 B → Style nv fn c (A ++ (n ++ s) :: l2 :: B) (A ++ (n ++ s ++ '|' :: l2) :: B)
  | note {A n s t B x} : c = true → Between nv fn A → Between nv fn (A ++ [n ++ s]) → TableCmd nv n x → NoteLine x s →
      Plain (n ++ s) → (∀ l, B.head? = some l → afterBackslash l = none) →
      Style nv fn c (A ++ (n ++ s) :: B) (A ++ (n ++ s ++ '"' :: t) :: B)
  | symm {ls ls'} : Style nv fn c ls ls' → Style nv fn c ls' ls
  | trans {ls ls' ls''} : Style nv fn c ls ls' → Style nv fn c ls' ls'' → Style nv fn c ls ls''

/-- The lines `ls`, which are between `A` and `B`, are joined with bars to the line `l`: all but the last are commands that a
bar can follow. -/
inductive Folded (nv : Bool) (fn : Str) (B : List Str) : List Str → List Str → Str → Prop
  | last {A} (l : Str) : Folded nv fn B A [l] l
  | bar {A n s ls l x} : Between nv fn A → Between nv fn (A ++ [n ++ s]) → TableCmd nv n x → BarLine x s →
      CanJoin (n ++ s) l B → Folded nv fn B (A ++ [n ++ s]) ls l → Folded nv fn B A ((n ++ s) :: ls) (n ++ s ++ '|' :: l)

end Viml.Spec
