/-
The errors of a line behind other text on the same line.
-/
import Verif.Lemmas.HolderBlock
import Verif.Lemmas.MoverFile
import Verif.Props.FileError
import Verif.Props.Error

namespace Viml
open Spec

variable {nv : Bool} {fn l p n : Str} {c : Cmd}

/-- The place of the line `l` that is moved behind the text `p` on the same line. -/
def movePos (p : Str) (q : Pos) : Pos :=
  ⟨q.i + p.length, q.lnum, if q.lnum = 1 then q.col + bytes p else q.col, q.offset + bytes p⟩

theorem lineAt_map : ∀ (p u v : Str), (lineAt u v).map (fun c => ⟨c.c, movePos p c.pos⟩) = lineAt (p ++ u) v
  | p, u, [] => by
    have : movePos p (posn u) = posn (p ++ u) := by
      simp only [movePos, posn, if_pos, List.length_append, bytes_append, Pos.mk.injEq, true_and]
      omega
    simp [lineAt, this]
  | p, u, c :: v => by
    have : movePos p (posn u) = posn (p ++ u) := by
      simp only [movePos, posn, if_pos, List.length_append, bytes_append, Pos.mk.injEq, true_and]
      omega
    simp [lineAt, this, lineAt_map p (u ++ [c]) v]

theorem cut_length : ∀ u v : Str, (lineAt u v).length = v.length + 1
  | _, [] => rfl
  | u, c :: v => by simp [lineAt, cut_length (u ++ [c]) v]

theorem eof_line (l : Str) : (mkEnv [l]).eof = ⟨l.length + 1, 2, 0, bytes l + 1⟩ := by
  have h : (mkEnv [l]).eof = ⟨(mkEnv [l]).buf.length, 2, 0, totalLen [l]⟩ := rfl
  rw [h, cut_buf, cut_length]
  simp [totalLen, bytesLen_eq]

theorem eof_move (p l : Str) : (mkEnv [p ++ l]).eof = movePos p (mkEnv [l]).eof := by
  rw [eof_line, eof_line]
  simp only [movePos, List.length_append, bytes_append, Pos.mk.injEq, true_and]
  simp
  omega

/-- The line `l` behind `p`. -/
def sameLine (fn p l : Str) : Mover (mkEnv [l]) (mkEnv [p ++ l]) fn where
  κ :=
    { q0 := []
      q := []
      f := fun c => ⟨c.c, movePos p c.pos⟩
      m := fun q => ⟨q.offset + bytes p, q.line, if q.line = 1 then q.column + bytes p else q.column, q.filename⟩
      bd := True
      char := fun _ => rfl
      pos := fun _ => rfl
      eof := fun _ => ⟨rfl, rfl, by rw [eof_move]; rfl⟩ }
  bd := trivial
  mp := movePos p
  pos _ := rfl
  eof := eof_move p l
  buf r hr := by
    have h1 := hr.map (fun c : Cell => (⟨c.c, movePos p c.pos⟩ : Cell))
    rw [cut_buf, lineAt_map, List.append_nil] at h1
    have h2 := (cut_reads p [] l).suf
    rw [List.nil_append, ← cut_buf] at h2
    refine ⟨_, h1.trans h2, ?_⟩
    cases r with
    | nil => exact ⟨by unfold here posOf; simp only [List.map_nil]; rw [eof_move]; rfl, eof_move p l⟩
    | cons c r => exact ⟨rfl, rfl⟩

theorem sameLine_tr (fn p l : Str) : (sameLine fn p l).tr (lineAt [] l) = lineAt p l := by
  rw [Mover.map]
  exact (lineAt_map p [] l).trans (by rw [List.append_nil])

theorem lexErr_lead {env : Env} {s r : List Cell} {m : Str} {q : Pos} (w : Blanks s r) (h : LexErr env r m q) : LexErr env s m q := by
  cases h with
  | char a _ _ c h1 h2 h3 h4 =>
    obtain ⟨b, h5, h6⟩ := blanks_lead w ⟨a, h1, h2⟩
    exact .char b _ _ c h5 h6 h3 h4
  | blob a _ _ z t r2 x y h1 h2 h3 h4 h5 h6 h7 h8 =>
    obtain ⟨b, h9, h10⟩ := blanks_lead w ⟨a, h1, h2⟩
    exact .blob b _ _ z t r2 x y h9 h10 h3 h4 h5 h6 h7 h8

theorem next_lead {env : Env} {s r : List Cell} {P : TT → Prop} (w : Blanks s r) (h : Next env r P) : Next env s P := by
  obtain ⟨t, r1, h1, h2⟩ := h
  exact ⟨t, r1, lex_lead w h1, h2⟩

theorem lex_unlead {env : Env} {s r r1 : List Cell} {t : Token} (he : EnvOK env) (hs : Suf env s) (w : Blanks s r) (h : Lex env s t r1) :
    Lex env r t r1 := by
  have hr : Suf env r := by
    obtain ⟨a, h1, _⟩ := w
    exact h1.suf.trans hs
  rcases lex_total he hr with ⟨m, q, h1⟩ | ⟨t', r2, h1⟩
  · exact absurd (lexErr_lead w h1) (fun h2 => h2.no he hs h)
  · obtain ⟨rfl, rfl⟩ := Spec.Lex.det he hs h (lex_lead w h1)
    exact h1

/-- White space in front of a wrong expression. -/
theorem gErr_lead {env : Env} (he : EnvOK env) : ∀ {k r m q}, GErr env fn k r m q → ∀ {s}, Suf env s → Blanks s r → GErr env fn k s m q
  | _, _, _, _, .first h1 h2 h3 h, _, hs, w => .first h1 h2 h3 (gErr_lead he h hs w)
  | _, _, _, _, .noOp1 h1 h2, _, _, w => .noOp1 (gram_lead h1 w) h2
  | _, _, _, _, .thenPart h1 h2 h3, _, _, w => .thenPart (gram_lead h1 w) h2 h3
  | _, _, _, _, .colon h1 h2 h3 h4, _, _, w => .colon (gram_lead h1 w) h2 h3 h4
  | _, _, _, _, .elsePart h1 h2 h3 h4 h5, _, _, w => .elsePart (gram_lead h1 w) h2 h3 h4 h5
  | _, _, _, _, .noOp h1 h2 h3, _, _, w => .noOp h1 (chain_lead h2 w) h3
  | _, _, _, _, .right h1 h2 h3 h4 h5, _, _, w => .right h1 (chain_lead h2 w) h3 h4 h5
  | _, _, _, _, .noOp4 h1 h2, _, _, w => .noOp4 (gram_lead h1 w) h2
  | _, _, _, _, .right4 h1 h2 h3 h4, _, _, w => .right4 (gram_lead h1 w) h2 h3 h4
  | _, _, _, _, .unary h1 h2 h3, _, _, w => .unary (lex_lead w h1) h2 h3
  | _, _, _, _, .noUnary h1 h2, _, hs, w => .noUnary (fun t r1 op h => h1 t r1 op (lex_unlead he hs w h)) (gErr_lead he h2 hs w)
  | _, _, _, _, .subscript h1 h2 h3 h4, _, _, w => .subscript (chain_lead h1 w) h2 h3 h4
  | _, _, _, _, .call h1 h2 h3, _, _, w => .call (chain_lead h1 w) h2 h3
  | _, _, _, _, .callee h1 h2 h3, _, _, w => .callee (chain_lead h1 w) h2 h3
  | _, _, _, _, .noCallLex h1 h2 h3 h4, _, _, w => .noCallLex (chain_lead h1 w) h2 h3 h4
  | _, _, _, _, .noCall h1 h2 h3 h4 h5, _, _, w => .noCall (chain_lead h1 w) h2 h3 h4 h5
  | _, _, _, _, .method h1 h2 h3 h4 h5, _, _, w => .method (chain_lead h1 w) h2 h3 h4 h5
  | _, _, _, _, .lex h, _, _, w => .lex (lexErr_lead w h)
  | _, _, _, _, .operand h1 h2, _, _, w => .operand (lex_lead w h1) h2
  | _, _, _, _, .dstring h1 h2 h3 h4, _, _, w => .dstring (blanks_lead w h1) h2 h3 h4
  | _, _, _, _, .escape h1 h2 h3 h4, _, _, w => .escape (blanks_lead w h1) h2 h3 h4
  | _, _, _, _, .sstring h1 h2 h3 h4, _, _, w => .sstring (blanks_lead w h1) h2 h3 h4
  | _, _, _, _, .list h1 h2, _, _, w => .list (mark_lead w h1) h2
  | _, _, _, _, .paren h1 h2, _, _, w => .paren (mark_lead w h1) h2
  | _, _, _, _, .parenEnd h1 h2 h3, _, _, w => .parenEnd (mark_lead w h1) h2 h3
  | _, _, _, _, .name h1 h2 h3, _, _, w => .name (next_lead w h1) (blanks_lead w h2) h3
  | _, _, _, _, .sid h1 h2 h3 h4, _, _, w => .sid (blanks_lead w h1) h2 h3 h4
  | _, _, _, _, .brace ⟨t, h0, h1⟩ h2, _, _, w => .brace ⟨t, lex_lead w h0, h1⟩ h2
  | _, _, _, _, .curly ⟨t, h0, h1⟩ h2 h3 h4 h5 h6, _, _, w => .curly ⟨t, lex_lead w h0, h1⟩ h2 h3 h4 (blanks_lead w h5) h6

/-- The error of the expression `l` behind other text. -/
theorem gErr_behind {m : Str} {q : Pos} (p : Str) (h : GErr (mkEnv [l]) [] 1 (mkEnv [l]).buf m q) :
    GErr (mkEnv [p ++ l]) fn 1 (lineAt p l) m (movePos p q) := by
  have h1 : GErr (mkEnv [l]) fn 1 (mkEnv [l]).buf m q :=
    (parseExpr1_bad (mkEnv_ok _) (List.suffix_refl _)).1 ((parseExpr1_bad (mkEnv_ok _) (List.suffix_refl _)).2 h)
  have h2 := mvGErr (sameLine fn p l) h1
  rwa [cut_buf, sameLine_tr] at h2

/-- The head of a command as in the rules for errors. -/
theorem head_at {env : Env} {used used' : List Str} {r r0 ra r1 : List Cell} {ea : Ast.ExArg}
    (h : CmdHead nv env fn used r r0 ea c ra r1 used') : ∃ rc, HeadAt nv env fn used r r0 rc ea c ra r1 used' := by
  obtain ⟨ms, rg, rc, r2, b, r3, h1, h2, h3, h4, h5, h6, h7⟩ := h.ex
  exact ⟨rc, _, ⟨ms, rg, r2, b, r3, ⟨h1, h2, h3, h4⟩, h5, h6, rfl⟩, h7⟩

end Viml
