/-
A modifier before a command.
-/
import Verif.Lemmas.RespellMid
import Verif.Spec.Modify

namespace Viml
open Spec

section
variable {p q : Ast.Pos} {m : Modifier} {w : Str}

theorem Spec.ModdedL.refl (ss : List Ast.Stmt) : ModdedL p q m w 0 ss ss := by
  induction ss with
  | nil => exact .nil
  | cons s ss ih => exact .cons (.same s) ih

theorem Spec.ModdedL.append {i j : Nat} {a a' b b' : List Ast.Stmt} (h1 : ModdedL p q m w i a a') (h2 : ModdedL p q m w j b b') :
    ModdedL p q m w (i + j) (a ++ b) (a' ++ b') := by
  match h1 with
  | .nil => rw [Nat.zero_add]; exact h2
  | .cons h3 h4 =>
    rw [Nat.add_assoc]
    exact .cons h3 (h4.append h2)

theorem Spec.ModdedL.before {i : Nat} {a b b' : List Ast.Stmt} (h : ModdedL p q m w i b b') :
    ModdedL p q m w i (a ++ b) (a ++ b') := by
  have := (ModdedL.refl (p := p) (q := q) (m := m) (w := w) a).append h
  rwa [Nat.zero_add] at this

theorem Spec.ModdedL.behind {i : Nat} {a a' b : List Ast.Stmt} (h : ModdedL p q m w i a a') :
    ModdedL p q m w i (a ++ b) (a' ++ b) := h.append (ModdedL.refl b)

theorem Spec.ModdedL.one {i : Nat} {s s' : Ast.Stmt} (h : Modded p q m w i s s') : ModdedL p q m w i [s] [s'] := .cons h .nil

end

/-! ### Options -/

theorem argOpts_mod {q : Ast.Pos} {m : Modifier} {a b : Ast.ExArg} {r r' : List Cell} (h : ArgOpts a r b r') :
    ArgOpts (addMod q m a) r (addMod q m b) r' := by
  induction h with
  | nil h => exact .nil h
  | cons h1 h2 _ ih =>
    refine .cons ?_ h2 ih
    cases h1 with
    | bin g => exact .bin g
    | nobin g => exact .nobin g
    | edit g => exact .edit g
    | ff g1 g2 g3 => exact .ff g1 g2 g3
    | enc g1 g2 g3 g4 g5 => exact .enc g1 g2 g3 g4 g5
    | bad g1 g2 => exact .bad g1 g2
    | badChar g1 g2 => exact .badChar g1 g2

theorem options_mod {q : Ast.Pos} {m : Modifier} {c : Cmd} {a b : Ast.ExArg} {r r' : List Cell} (h : Options c a r b r') :
    Options c (addMod q m a) r (addMod q m b) r' := by
  obtain ⟨e1, r1, e2, r2, e3, r3, e4, r4, h1, h2, h3, h4, h5⟩ := h
  refine ⟨addMod q m e1, r1, addMod q m e2, r2, addMod q m e3, r3, addMod q m e4, r4, ?_, ?_, ?_, ?_, ?_⟩
  · rcases h1 with ⟨g, h⟩ | ⟨g, rfl, rfl⟩
    · exact .inl ⟨g, argOpts_mod h⟩
    · exact .inr ⟨g, rfl, rfl⟩
  · cases h2 with
    | append g1 g2 g3 => exact .append g1 g2 g3
    | filter g1 g2 => exact .filter g1 g2
    | none g1 g2 => exact .none g1 g2
  · cases h3 with
    | bang g1 g2 => exact .bang g1 g2
    | filter g1 g2 g3 => exact .filter g1 g2 g3
    | none g1 => exact .none g1
  · cases h4 with
    | shift g1 g2 g3 g4 => exact .shift g1 g2 g3 g4
    | none g1 g2 => exact .none g1 g2
  · rcases h5 with ⟨g, h⟩ | ⟨g, rfl, rfl⟩
    · refine .inl ⟨g, ?_⟩
      cases h with
      | last g1 g2 => exact .last g1 g2
      | cmd g1 g2 g3 => exact .cmd g1 g2 g3
      | none g1 => exact .none g1
    · exact .inr ⟨g, rfl, rfl⟩

/-- A place behind the modifiers where a range is expected: what is at `a` can be at `b`. -/
def SameRange (b a : List Cell) : Prop :=
  (∀ {rg r2}, Range a rg r2 → Range b rg r2) ∧ ∀ {env m q}, RangeErr env a m q → RangeErr env b m q

theorem SameRange.refl (a : List Cell) : SameRange a a := ⟨id, id⟩

/-- `s` is `r` with the modifier `m`, the text `w`, before it. -/
structure Modif (m : Modifier) (w : Str) (s r : List Cell) : Prop where
  text : Reads s w r
  bang : ¬ StartsWith s cs!"#!"
  nobang : ¬ StartsWith r cs!"#!"
  skip : SkipC s s
  skip' : SkipC r r
  ne : ¬ AtEnd s
  ne' : ¬ AtEnd r
  quote : headSym s ≠ .ch '"'
  quote' : headSym r ≠ .ch '"'
  counts : CountsOK [m]
  mods : ∀ {ms r1}, Mods r ms r1 → ∃ r1', Mods s (m :: ms) r1' ∧ SameRange r1' r1
  bare : ∀ {r1}, ¬ BareHide r r1
  mark : ∀ {r1}, Reads r ['\''] r1 → ¬ AtEnd r1

namespace Modif
variable {nv : Bool} {env : Env} {fn : Str} {cx : Ctx} {b : Option Inner} {used used' : List Str} {m : Modifier} {w : Str}
  {s r r' r0 ra rc r1 x : List Cell}

theorem counts' {ms} (ω : Modif m w s r) : CountsOK (m :: ms) ↔ CountsOK ms := by
  constructor
  · exact fun h n hn => h n (by simp [hn])
  · intro h n hn
    rcases List.mem_cons.1 hn with rfl | hn
    · exact ω.counts _ (by simp)
    · exact h n hn

theorem before {ms rg} (ω : Modif m w s r) (h : Before r r0 ms rg rc) : r0 = r ∧ Before s s (m :: ms) rg rc := by
  obtain ⟨_, b1, b2, b3, r1, r2, b4, b5, b6, b7⟩ := h
  cases b1.det ω.skip'
  obtain ⟨r1', h1, h2⟩ := ω.mods b4
  exact ⟨rfl, ω.bang, ω.skip, ω.ne, ω.quote, r1', r2, h1, ω.counts'.2 b5, h2.1 b6, b7⟩

/-- The record with the modifier. -/
def more (env : Env) (fn : Str) (m : Modifier) (s : List Cell) (ea : Ast.ExArg) : Ast.ExArg := addMod (Spec.here env fn s) m ea

theorem named {ms rg c} (ω : Modif m w s r) (h : NamedAt nv used r r0 ms rg rc c r1 used') :
    r0 = r ∧ NamedAt nv used s s (m :: ms) rg rc c r1 used' := ⟨(ω.before h.1).1, (ω.before h.1).2, h.2⟩

theorem argsAt {ea c} (ω : Modif m w s r) (h : ArgsAt nv env fn used r r0 rc ea c ra used') :
    r0 = r ∧ ea.linepos = Spec.here env fn r ∧ ArgsAt nv env fn used s s rc (more env fn m s ea) c ra used' := by
  obtain ⟨ms, rg, r1, b, r2, h1, h2, h3, rfl⟩ := h
  obtain ⟨rfl, h4⟩ := ω.named h1
  exact ⟨rfl, rfl, m :: ms, rg, r1, b, r2, h4, h2, h3, rfl⟩

theorem headAt {ea c} (ω : Modif m w s r) (h : HeadAt nv env fn used r r0 rc ea c ra r1 used') :
    r0 = r ∧ ea.linepos = Spec.here env fn r ∧ HeadAt nv env fn used s s rc (more env fn m s ea) c ra r1 used' := by
  obtain ⟨ea0, h1, h2⟩ := h
  obtain ⟨rfl, e, h3⟩ := ω.argsAt h1
  exact ⟨rfl, (Options.pos h2).1.trans e, _, h3, options_mod h2⟩

theorem cmdHead {ea c} (ω : Modif m w s r) (h : CmdHead nv env fn used r r0 ea c ra r1 used') :
    r0 = r ∧ ea.linepos = Spec.here env fn r ∧ CmdHead nv env fn used s s (more env fn m s ea) c ra r1 used' := by
  obtain ⟨ms, rg, rc, r2, b, r3, h1, h2, h3, h4, h5, h6, h7⟩ := h
  obtain ⟨rfl, h8⟩ := ω.before h1
  exact ⟨rfl, (Options.pos h7).1, m :: ms, rg, rc, r2, b, r3, h8, h2, h3, h4, h5, h6, options_mod h7⟩

theorem rawText {c : Cmd} {f : Bool} {v : Str} (ω : Modif m w s r) (h : RawText env fn c f r ra r1 v r') :
    RawText env fn c f s ra r1 (w ++ v) r' := by
  cases h with
  | bar g1 g2 g3 g4 g5 g6 => exact .bar g1 g2 g3 g4 g5 (ω.text.append g6)
  | line g1 g2 g3 => exact .line g1 g2 (ω.text.append g3)

theorem blockOf {n v : Str} (ω : Modif m w s r) (h : BlockOf r n v r') : BlockOf s n (w ++ v) r' := by
  obtain ⟨l, e, r2, ls, h3, h4, h5, rfl⟩ := h
  exact ⟨w ++ l, e, r2, ls, ω.text.append h3, h4, h5, (Alias.intercalate_cons ..).symm⟩

theorem raw {c : Cmd} {f top : Bool} {v : Str} (ω : Modif m w s r) (h : Raw env fn top r ra f c r1 v r') :
    Raw env fn top s ra f c r1 (w ++ v) r' := by
  cases h with
  | common g1 g2 => exact .common g1 (ω.rawText g2)
  | finish g1 g2 g3 => exact .finish g1 g2 (ω.rawText g3)
  | finishTop g1 g2 g3 => exact .finishTop g1 g2 (ω.rawText g3)
  | append g1 g2 => exact .append g1 (ω.blockOf g2)
  | keymap g1 g2 g3 =>
    cases g3 with
    | nil => exact absurd rfl g2
    | cons g3 g4 g5 =>
      rw [← Alias.intercalate_cons]
      exact .keymap g1 (by simp) (.cons (ω.text.append g3) g4 g5)
  | script g1 g2 g3 g4 g5 g6 => exact .script g1 g2 g3 g4 g5 (ω.blockOf g6)
  | scriptLine g1 g2 g3 g4 => exact .scriptLine g1 g2 g3 ⟨ω.text.append g4.1, g4.2⟩
  | wincmd g1 g2 g3 g4 g5 => exact .wincmd g1 g2 (ω.text.append g3) g4 g5
  | «syntax» g1 g2 g3 => exact .syntax g1 g2 (ω.text.append g3)

theorem simple {c : Cmd} {ea xs} (ω : Modif m w s r) (e : ea.linepos = Spec.here env fn r)
    (h : Spec.Simple env fn cx r ra ea c r1 xs r') :
    ∃ xs', ModdedL (Spec.here env fn r) (Spec.here env fn s) m w 1 xs xs' ∧
      Spec.Simple env fn cx s ra (more env fn m s ea) c r1 xs' r' := by
  have one : ∀ {x}, recordOf x = some ea → ModdedL (Spec.here env fn r) (Spec.here env fn s) m w 1 [x]
      [withRecord w (addMod (Spec.here env fn s) m) x] := fun h => .one (.simple h e)
  cases h with
  | raw g1 => exact ⟨_, one rfl, .raw (ω.raw g1)⟩
  | funcListing g1 g2 g3 => exact ⟨_, one rfl, .funcListing g1 g2 (ω.rawText g3)⟩
  | letListing g1 g2 g3 => exact ⟨_, one rfl, .letListing g1 g2 (ω.rawText g3)⟩
  | constListing g1 g2 g3 => exact ⟨_, one rfl, .constListing g1 g2 (ω.rawText g3)⟩
  | delfunction g1 g2 => exact ⟨_, one rfl, .delfunction g1 g2⟩
  | return_ g1 g2 g3 g4 g5 => exact ⟨_, one rfl, .return_ g1 g2 g3 g4 g5⟩
  | returnNone g1 g2 g3 g4 => exact ⟨_, one rfl, .returnNone g1 g2 g3 g4⟩
  | call g1 g2 g3 g4 => exact ⟨_, one rfl, .call g1 g2 g3 g4⟩
  | let_ g1 g2 g3 g4 g5 g6 => exact ⟨_, one rfl, .let_ g1 g2 g3 g4 g5 g6⟩
  | heredoc g1 g2 g3 g4 g5 g6 => exact ⟨_, (one rfl).before, .heredoc g1 g2 g3 g4 g5 g6⟩
  | const_ g1 g2 g3 g4 => exact ⟨_, one rfl, .const_ g1 g2 g3 g4⟩
  | unlet g1 g2 => exact ⟨_, one rfl, .unlet g1 g2⟩
  | lockvar g1 g2 g3 => exact ⟨_, one rfl, .lockvar g1 g2 g3⟩
  | unlockvar g1 g2 g3 => exact ⟨_, one rfl, .unlockvar g1 g2 g3⟩
  | continue_ g1 g2 => exact ⟨_, one rfl, .continue_ g1 g2⟩
  | break_ g1 g2 => exact ⟨_, one rfl, .break_ g1 g2⟩
  | throw g1 g2 => exact ⟨_, one rfl, .throw g1 g2⟩
  | eval g1 g2 => exact ⟨_, one rfl, .eval g1 g2⟩
  | echo g1 g2 => exact ⟨_, one rfl, .echo g1 g2⟩
  | echohl g1 g2 => exact ⟨_, one rfl, .echohl g1 g2⟩
  | execute g1 g2 => exact ⟨_, one rfl, .execute g1 g2⟩

theorem opens {α : Type} {n : Str} {A : List Cell → α → List Cell → Prop} {ea a cm} (ω : Modif m w s r)
    (h : Spec.Opens nv env fn n A used r ea a cm used' r') :
    ea.linepos = Spec.here env fn r ∧ Spec.Opens nv env fn n A used s (more env fn m s ea) a cm used' r' := by
  obtain ⟨r0, d, ra, r1, r2, h0, h1, h2⟩ := h
  obtain ⟨rfl, e, h3⟩ := ω.cmdHead h1
  exact ⟨e, s, d, ra, r1, r2, h0, h3, h2⟩

theorem closes {n e} (ω : Modif m w s r) (h : Closes nv env fn n used r e used' r') :
    e.ea.linepos = Spec.here env fn r ∧ Closes nv env fn n used s ⟨e.pos, more env fn m s e.ea⟩ used' r' := by
  obtain ⟨r0, ea, d, ra, r1, h0, h1, rfl, h2⟩ := h
  obtain ⟨rfl, e, h3⟩ := ω.cmdHead h1
  exact ⟨e, s, _, d, ra, r1, h0, h3, rfl, h2⟩

theorem ifPart {used' r' ea ss y eis} (ω : Modif m w s r) : IfPart nv env fn cx used r ea ss y eis used' r' →
    ea.linepos = Spec.here env fn r ∧ IfPart nv env fn cx used s (more env fn m s ea) ss y eis used' r'
  | .if_ h1 h2 => ⟨(ω.opens h1).1, .if_ (ω.opens h1).2 h2⟩
  | .elseif h1 h2 h3 => ⟨(ω.ifPart h1).1, .elseif (ω.ifPart h1).2 h2 h3⟩

theorem tryPart {used' r' ea ss cs} (ω : Modif m w s r) : TryPart nv env fn cx used r ea ss cs used' r' →
    ea.linepos = Spec.here env fn r ∧ TryPart nv env fn cx used s (more env fn m s ea) ss cs used' r'
  | .try_ h1 h2 => ⟨(ω.opens h1).1, .try_ (ω.opens h1).2 h2⟩
  | .catch_ h1 h2 h3 => ⟨(ω.tryPart h1).1, .catch_ (ω.tryPart h1).2 h2 h3⟩

theorem block {x} (ω : Modif m w s r) (h : Block nv env fn cx used r x used' r') :
    ∃ x', Modded (Spec.here env fn r) (Spec.here env fn s) m w 1 x x' ∧ Block nv env fn cx used s x' used' r' := by
  cases h with
  | function h1 h2 h3 => exact ⟨_, .function (.mod (ω.opens h1).1) (.refl _) (.same _), .function (ω.opens h1).2 h2 h3⟩
  | while_ h1 h2 h3 => exact ⟨_, .while_ (.mod (ω.opens h1).1) (.refl _) (.same _), .while_ (ω.opens h1).2 h2 h3⟩
  | for_ h1 h2 h3 => exact ⟨_, .for_ (.mod (ω.opens h1).1) (.refl _) (.same _), .for_ (ω.opens h1).2 h2 h3⟩
  | if_ h1 h2 =>
    exact ⟨_, .if_ (.mod (ω.ifPart h1).1) (.refl _) (.refl _) (.refl _) (.same _), .if_ (ω.ifPart h1).2 h2⟩
  | ifElse h1 h2 h3 h4 =>
    exact ⟨_, .if_ (.mod (ω.ifPart h1).1) (.refl _) (.refl _) (.refl _) (.same _), .ifElse (ω.ifPart h1).2 h2 h3 h4⟩
  | try_ h1 h2 =>
    exact ⟨_, .try_ (.mod (ω.tryPart h1).1) (.refl _) (.refl _) (.refl _) (.same _), .try_ (ω.tryPart h1).2 h2⟩
  | tryFinally h1 h2 h3 h4 =>
    exact ⟨_, .try_ (.mod (ω.tryPart h1).1) (.refl _) (.refl _) (.refl _) (.same _), .tryFinally (ω.tryPart h1).2 h2 h3 h4⟩

/-- A line with a range or modifiers only has one of them. -/
theorem noCommand {ms rg} (ω : Modif m w s r) (h : Before r r0 ms rg rc) (hc : AtEnd rc ∨ headSym rc = .ch '"') :
    ¬ (ms = [] ∧ rg = []) := by
  rintro ⟨rfl, rfl⟩
  obtain ⟨_, b1, b2, b3, r1, r2, b4, b5, b6, b7⟩ := h
  cases b1.det ω.skip'
  have hw : (headSym r).is iswhite = false := by
    obtain ⟨v, h1, h2, h3⟩ := ω.skip'
    revert h3
    cases headSym r <;> simp +contextual [Sym.is]
  have sp : Skip r r := ⟨[], Reads.nil _, by simp, hw⟩
  have e : r1 = r := by
    cases b4 with
    | nil => rfl
    | hide h => exact absurd h ω.bare
  subst e
  have off : ∀ {x}, Offsets r1 [] x → x = r1 := by
    intro x h
    cases h with
    | nil h => exact h.det sp
  have key : ∀ {x ts}, ts = [] → Addresses r1 ts x → x = r1 := by
    intro x ts e h
    cases h with
    | eol h h' =>
      cases h.det sp
      exact absurd h' b2
    | quote h h1 h2 =>
      cases h.det sp
      exact absurd h2 (ω.mark h1)
    | one h h1 h2 h3 =>
      cases h.det sp
      obtain ⟨rfl, rfl⟩ := List.append_eq_nil_iff.1 e
      cases h2 with
      | none => exact off h3
    | more h h1 h2 h3 h4 =>
      cases h.det sp
      have e' := (List.append_eq_nil_iff.1 e).1
      obtain ⟨rfl, rfl⟩ := List.append_eq_nil_iff.1 e'
      cases h2 with
      | none h5 =>
        cases off h3
        rcases h4 with h4 | h4 <;> rw [h4] at h5 <;> simp [Sym.is] at h5
  have fin : r2 = r1 := by
    generalize e : ([] : List Str) = rg at b6
    cases b6 with
    | last h1 h2 =>
      obtain ⟨rfl, rfl⟩ := List.append_eq_nil_iff.1 e.symm
      cases key rfl h1
      cases h2
      rfl
    | more h1 h2 h3 h4 h5 => simp at e
  subst fin
  cases b7.det ω.skip'
  exact hc.elim ω.ne' ω.quote'

/-- Lines, if there are any. -/
theorem body {used' r' ss} (ω : Modif m w s r) : Body nv env fn cx used r ss used' r' →
    (ss = [] ∧ used' = used ∧ r' = r) ∨
      ∃ ss', ModdedL (Spec.here env fn r) (Spec.here env fn s) m w 1 ss ss' ∧ Body nv env fn cx used s ss' used' r'
  | .nil => .inl ⟨rfl, rfl, rfl⟩
  | .shebang h h1 h2 h3 => by
    rcases ω.body h with ⟨rfl, rfl, rfl⟩ | ⟨ss, hr, h⟩
    · exact absurd h1 ω.nobang
    · exact .inr ⟨ss, hr, .shebang h h1 h2 h3⟩
  | .empty h h2 h3 => by
    rcases ω.body h with ⟨rfl, rfl, rfl⟩ | ⟨ss, hr, h⟩
    · have e2 := ω.ne'
      rw [← h2.det ω.skip'] at e2
      exact absurd (.inl (by simp [headSym, Cell.sym, h3])) e2
    · exact .inr ⟨ss, hr, .empty h h2 h3⟩
  | .comment h h2 h3 => by
    rcases ω.body h with ⟨rfl, rfl, rfl⟩ | ⟨ss, hr, h⟩
    · cases h2.det ω.skip'
      cases h3 with
      | mk h3 => exact absurd (reads_head h3) ω.quote'
    · exact .inr ⟨_, hr.behind, .comment h h2 h3⟩
  | .noCommand h h1 h2 h3 h4 => by
    rcases ω.body h with ⟨rfl, rfl, rfl⟩ | ⟨ss, hr, h⟩
    · have hn := ω.noCommand h1 h2
      obtain ⟨rfl, h5⟩ := ω.before h1
      have h6 := Body.noCommand (nv := nv) (fn := fn) (cx := cx) (used := used') .nil h5 h2 (ω.text.append h3) h4
      rw [if_neg (by simp)] at h6
      refine .inr ⟨_, ?_, h6⟩
      rw [if_neg hn]
      exact ModdedL.behind (.one (.simple (w := w) (s := .excmd _ _ _) rfl rfl))
    · exact .inr ⟨_, hr.behind.behind, .noCommand h h1 h2 h3 h4⟩
  | .simple h h1 h2 h3 => by
    rcases ω.body h with ⟨rfl, rfl, rfl⟩ | ⟨ss, hr, h⟩
    · obtain ⟨rfl, e, h4⟩ := ω.cmdHead h1
      obtain ⟨xs, hr, h9⟩ := ω.simple e h2
      exact .inr ⟨[] ++ xs ++ _, hr.behind, .simple .nil h4 h9 h3⟩
    · exact .inr ⟨_, hr.behind.behind, .simple h h1 h2 h3⟩
  | .block h h1 h2 => by
    rcases ω.body h with ⟨rfl, rfl, rfl⟩ | ⟨ss, hr, h⟩
    · obtain ⟨x, hr, h3⟩ := ω.block h1
      exact .inr ⟨_, (ModdedL.one hr).behind, .block .nil h3 h2⟩
    · exact .inr ⟨_, hr.behind.behind, .block h h1 h2⟩

theorem headErr {e q} (ω : Modif m w s r) (h : HeadErr nv env fn used r e q) : HeadErr nv env fn used s e q := by
  cases h with
  | range h1 h2 h3 h4 h5 h6 h7 =>
    cases h2.det ω.skip'
    obtain ⟨r1, h8, h9⟩ := ω.mods h5
    exact .range ω.bang ω.skip ω.ne ω.quote h8 (ω.counts'.2 h6) (h9.2 h7)
  | name h1 h2 h3 h4 h5 => exact .name (ω.before h1).2 h2 h3 h4 h5
  | bang h1 h2 h3 h4 h5 => exact .bang (ω.named h1).2 h2 h3 h4 h5
  | argOpt h1 h2 h3 => exact .argOpt (ω.argsAt h1).2.2 h2 h3
  | write h1 h2 h3 h4 h5 =>
    exact .write (ω.argsAt h1).2.2 (h2.imp (fun h => ⟨h.1, argOpts_mod (q := Spec.here env fn s) (m := m) h.2⟩) id) h3 h4 h5

theorem argsDone {c : Cmd} {ea} (ω : Modif m w s r) (e : ea.linepos = Spec.here env fn r)
    (h : ArgsDone env fn cx r ra ea c r1 r') : ArgsDone env fn cx s ra (more env fn m s ea) c r1 r' := by
  cases h with
  | simple h =>
    obtain ⟨_, _, h⟩ := ω.simple e h
    exact .simple h
  | function g1 g2 => exact .function g1 g2
  | expr g1 g2 => exact .expr g1 g2
  | for_ g1 g2 => exact .for_ g1 g2
  | catch_ g1 g2 => exact .catch_ g1 g2
  | endfunction g1 g2 => exact .endfunction g1 g2
  | none g1 => exact .none g1

theorem lineErr {e q} (ω : Modif m w s r) (h : LineErr nv env fn cx b used r e q) : LineErr nv env fn cx b used s e q := by
  cases h with
  | head h => exact .head (ω.headErr h)
  | place h1 h2 => exact .place (ω.headAt h1).2.2 h2
  | args h1 h2 h3 => exact .args (ω.headAt h1).2.2 h2 h3
  | trail h1 h2 h3 h4 =>
    obtain ⟨rfl, e, h5⟩ := ω.headAt h1
    exact .trail h5 h2 (ω.argsDone e h3) h4

theorem lineNum (ω : Modif m w s r) (h : LineNum nv env fn used r) : LineNum nv env fn used s := by
  cases h with
  | mods h1 h2 h3 h4 h5 h6 =>
    cases h2.det ω.skip'
    obtain ⟨r1, h8, h9⟩ := ω.mods h5
    exact .mods ω.bang ω.skip ω.ne ω.quote h8 fun h => h6 (ω.counts'.1 h)
  | depth h1 h2 h3 h4 h5 => exact .depth (ω.headAt h1).2.2 h2 h3 h4 h5

end Modif
end Viml
