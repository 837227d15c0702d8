/-
What property C82 says: a modifier before a command.
-/
import Verif.Spec.Indent
import Verif.Spec.File
import Verif.Spec.Lookup

namespace Viml.Spec

/-- The line `x` starts with a modifier `name`, possibly abbreviated and with a count; `t` is what follows the letters. -/
def ModWord (x name t : Str) : Prop :=
  ∃ d b k n, x = d ++ b ++ k ++ t ∧ (∀ c ∈ d, isdigit c = true) ∧ White b ∧ (d = [] → b = []) ∧
    (∀ c ∈ k, isalpha c = true) ∧ StopsAt isalpha t ∧ (name, n) ∈ vimModifiers ∧ k <+: name ∧ n ≤ k.length

/-- The line is a `:hide` with nothing after it, or a quote without a mark; the parser drops both. -/
def Dropped (x : Str) : Prop :=
  (∃ t, ModWord x cs!"hide" t ∧ (t = [] ∨ t.head? = some '|' ∨ t.head? = some '"')) ∨ x = cs!"'"

/-- The text `w` is the modifier `m`, if the line `x` follows: an optional count, the letters of the name, blanks; or
`:silent!`, behind which the parser sees no other modifier. -/
inductive ModText (x : Str) : Str → Modifier → Prop
  | plain {d b k b' name n bang count} : (∀ c ∈ d, isdigit c = true) → White b → (d = [] → b = []) →
      (∀ c ∈ k, isalpha c = true) → (name, n) ∈ vimModifiers → k <+: name → n ≤ k.length → White b' → b' ≠ [] →
      bang = (if name = cs!"silent" then some 0 else none) →
      count = (if name = cs!"tab" then (if d = [] then none else some (decVal d))
        else if name = cs!"verbose" then (if d = [] then some 1 else some (decVal d)) else none) →
      (∀ c, count = some c → c < 2147483648) → ModText x (d ++ b ++ k ++ b') ⟨name, bang, count⟩
  | bang {k b'} : (∀ c ∈ k, isalpha c = true) → k <+: cs!"silent" → 3 ≤ k.length → White b' →
      (∀ name t, ¬ ModWord x name t) → ModText x (k ++ cs!"!" ++ b') ⟨cs!"silent", some 1, none⟩

/-- The line starts with a command or a range: not with a blank, a colon or a comment. -/
def Begins (x : Str) : Prop := ∃ c t, x = c :: t ∧ iswhite c = false ∧ c ≠ ':' ∧ c ≠ '"'

/-- The record of a command with the modifier `m` before its other modifiers; its line starts at `q`. -/
def addMod (q : Ast.Pos) (m : Modifier) (ea : Ast.ExArg) : Ast.ExArg :=
  { ea with linepos := q, modifiers := m :: ea.modifiers }

/-- The record of a command that is no part of a block. -/
def recordOf : Ast.Stmt → Option Ast.ExArg
  | .excmd _ ea _ | .delFunction _ ea _ | .return_ _ ea _ | .exCall _ ea _ _ _ | .let_ _ ea _ _ _ _ _ | .unLet _ ea _
  | .lockVar _ ea _ _ | .unLockVar _ ea _ _ | .continue_ _ ea | .break_ _ ea | .throw _ ea _ | .eval _ ea _
  | .echoCmd _ _ ea _ | .echohl _ ea _ | .execute _ ea _ => some ea
  | _ => none

/-- A command that is no part of a block with another record; if it is kept as text, `w` stands before the text. -/
def withRecord (w : Str) (g : Ast.ExArg → Ast.ExArg) : Ast.Stmt → Ast.Stmt
  | .excmd p ea s => .excmd p (g ea) (w ++ s)
  | .delFunction p ea e => .delFunction p (g ea) e
  | .return_ p ea e => .return_ p (g ea) e
  | .exCall p ea f q as => .exCall p (g ea) f q as
  | .let_ p ea op l ls x e => .let_ p (g ea) op l ls x e
  | .unLet p ea es => .unLet p (g ea) es
  | .lockVar p ea n es => .lockVar p (g ea) n es
  | .unLockVar p ea n es => .unLockVar p (g ea) n es
  | .continue_ p ea => .continue_ p (g ea)
  | .break_ p ea => .break_ p (g ea)
  | .throw p ea e => .throw p (g ea) e
  | .eval p ea e => .eval p (g ea) e
  | .echoCmd p n ea es => .echoCmd p n (g ea) es
  | .echohl p ea s => .echohl p (g ea) s
  | .execute p ea es => .execute p (g ea) es
  | s => s

/-- Of the record of a command that starts or ends a block: it is unchanged (0), or its line starts at `p` and the modifier
is added (1). -/
inductive RecMod (p q : Ast.Pos) (m : Modifier) : Nat → Ast.ExArg → Ast.ExArg → Prop
  | same (ea) : RecMod p q m 0 ea ea
  | mod {ea} : ea.linepos = p → RecMod p q m 1 ea (addMod q m ea)

mutual

/-- The same statement, but for the records of `n` commands, whose lines start at `p`: they have the modifier `m` too, and
their lines start at `q`; a text that is kept starts with `w`. -/
inductive Modded (p q : Ast.Pos) (m : Modifier) (w : Str) : Nat → Ast.Stmt → Ast.Stmt → Prop
  | same (s) : Modded p q m w 0 s s
  | simple {s ea} : recordOf s = some ea → ea.linepos = p → Modded p q m w 1 s (withRecord w (addMod q m) s)
  | function {i j k x ea ea' b b' n is ds at_ y e e'} : RecMod p q m i ea ea' → ModdedL p q m w j b b' → RecMod p q m k e e' →
      Modded p q m w (i + j + k) (.function x ea b n is ds at_ ⟨y, e⟩) (.function x ea' b' n is ds at_ ⟨y, e'⟩)
  | while_ {i j k x ea ea' b b' c y e e'} : RecMod p q m i ea ea' → ModdedL p q m w j b b' → RecMod p q m k e e' →
      Modded p q m w (i + j + k) (.while_ x ea b c ⟨y, e⟩) (.while_ x ea' b' c ⟨y, e'⟩)
  | for_ {i j k x ea ea' b b' l ls rest c y e e'} : RecMod p q m i ea ea' → ModdedL p q m w j b b' → RecMod p q m k e e' →
      Modded p q m w (i + j + k) (.for_ x ea b l ls rest c ⟨y, e⟩) (.for_ x ea' b' l ls rest c ⟨y, e'⟩)
  | if_ {i j k l o x ea ea' b b' c eis eis' els els' y e e'} : RecMod p q m i ea ea' → ModdedL p q m w j b b' →
      ModdedL p q m w k eis eis' → ModdedL p q m w l els.toList els'.toList → RecMod p q m o e e' →
      Modded p q m w (i + j + k + l + o) (.if_ x ea b c eis els ⟨y, e⟩) (.if_ x ea' b' c eis' els' ⟨y, e'⟩)
  | elseIf {i j x ea ea' b b' c} : RecMod p q m i ea ea' → ModdedL p q m w j b b' →
      Modded p q m w (i + j) (.elseIf x ea b c) (.elseIf x ea' b' c)
  | else_ {i j x ea ea' b b'} : RecMod p q m i ea ea' → ModdedL p q m w j b b' →
      Modded p q m w (i + j) (.else_ x ea b) (.else_ x ea' b')
  | try_ {i j k l o x ea ea' b b' cs cs' fin fin' y e e'} : RecMod p q m i ea ea' → ModdedL p q m w j b b' →
      ModdedL p q m w k cs cs' → ModdedL p q m w l fin.toList fin'.toList → RecMod p q m o e e' →
      Modded p q m w (i + j + k + l + o) (.try_ x ea b cs fin ⟨y, e⟩) (.try_ x ea' b' cs' fin' ⟨y, e'⟩)
  | catch_ {i j x ea ea' b b' pat} : RecMod p q m i ea ea' → ModdedL p q m w j b b' →
      Modded p q m w (i + j) (.catch_ x ea b pat) (.catch_ x ea' b' pat)
  | finally_ {i j x ea ea' b b'} : RecMod p q m i ea ea' → ModdedL p q m w j b b' →
      Modded p q m w (i + j) (.finally_ x ea b) (.finally_ x ea' b')

inductive ModdedL (p q : Ast.Pos) (m : Modifier) (w : Str) : Nat → List Ast.Stmt → List Ast.Stmt → Prop
  | nil : ModdedL p q m w 0 [] []
  | cons {i j s s' ss ss'} : Modded p q m w i s s' → ModdedL p q m w j ss ss' → ModdedL p q m w (i + j) (s :: ss) (s' :: ss')

end

end Viml.Spec
