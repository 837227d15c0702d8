/-
C65: blank lines and comment lines at the end of a file.
-/
import Verif.Props.Insert
import Verif.Props.Concat

namespace Viml
open Spec

variable {nv : Bool} {fn : Str} {A B W : List Str}

/-- What is open at a place between statements does not depend on the lines behind it. -/
theorem between_fronts (h : Between nv fn A) : ∃ cx b, ∀ B : List Str, (∀ l, B.head? = some l → afterBackslash l = none) →
    ∃ used, Front nv (mkEnv (A ++ B)) fn cx b used (restB A B) := by
  have hX : ∀ l, [commentLine].head? = some l → afterBackslash l = none := by
    intro l hl
    cases hl
    decide +kernel
  obtain ⟨cx, b, used, hf⟩ := between_front h hX
  refine ⟨cx, b, fun B hB => ?_⟩
  let ι : Fore (A ++ [commentLine]) (mkEnv (A ++ B)) fn := foreOf fn hX hB (by simp)
  obtain ⟨x, h3⟩ := Fore.front_before (ι := ι) hf (.inr rfl)
  have e : ι.κ.tr (restB A [commentLine]) = restB A B := Carry.tr_end
  rw [e] at h3
  exact ⟨x, h3⟩

/-- If nothing is open, the lines before the place are statements. -/
theorem front_none {env : Env} {cx b used r} (h : Front nv env fn cx b used r) : b = none →
    cx = { top := true } ∧ ∃ ss, Body nv env fn { top := true } [] env.buf ss used r := by
  induction h with
  | start => exact fun _ => ⟨rfl, [], .nil⟩
  | lines h0 h1 ih =>
    intro e
    obtain ⟨rfl, ss, h⟩ := ih e
    exact ⟨rfl, _, Body.append h h1⟩
  | _ => exact fun e => by cases e

theorem quiet_here (env' : Env) (hW : ∀ l ∈ W, Quiet l) (cx : Ctx) (used : List Str) :
    Body nv env' fn cx used (restB A W) (commentsAt fn A W) used [] := by
  have := quiet_body (nv := nv) (fn := fn) env' cx used [] W A (mkEnv A).buf.length hW
  rw [List.append_nil] at this
  exact this

theorem comments_shift (V : List Str) (hV : ∀ n col, onContLine V n col = false) : ∀ (W X : List Str),
    Ast.Stmt.onPosL (shift A V) (commentsAt fn X W) = commentsAt fn (A ++ X) W
  | [], _ => rfl
  | l :: W, X => by
    rw [commentsAt, onPosS_append, comments_shift V hV W, commentsAt, List.append_assoc]
    congr 1
    unfold commentAt
    split
    · simp only [Ast.Stmt.onPosL, Ast.Stmt.onPos, shift, hV]
      simp [fileBytes]
      omega
    · rfl

theorem moveCell_none {c : Cell} (h : ∀ n col, onContLine W n col = false) : moveCell [] W 0 c = c := by
  simp [moveCell, h, fileBytes]

/-- The lines alone. -/
theorem quiet_script (hW : ∀ l ∈ W, Quiet l) :
    Script nv (mkEnv W) fn ⟨Spec.here (mkEnv W) fn (mkEnv W).buf, commentsAt fn [] W⟩ := by
  have h := quiet_here (nv := nv) (fn := fn) (A := []) (mkEnv W) hW { top := true } []
  have e : restB [] W = (mkEnv W).buf :=
    (List.map_congr_left (g := id) fun c _ => moveCell_none (noCont_line fun l hl => quiet_none (hW l hl))).trans (List.map_id _)
  rw [e] at h
  exact ⟨_, h, rfl⟩

namespace Props

theorem Quiet.heads (hW : ∀ l ∈ W, Quiet l) : ∀ l, W.head? = some l → afterBackslash l = none := fun l hl =>
  quiet_none (hW l (List.mem_of_mem_head? (by rw [hl]; rfl)))

/-- C65 at the end of a file.  If the place behind the lines `A` is between statements, then `A` and `A ++ W` are both accepted,
with the comments of `W` behind the statements of `A`, or a block is open and both are rejected with the same message at the end
of the file. -/
theorem C65_end (nv : Bool) (fn : Str) (A W : List Str) (hA : Between nv fn A) (hW : ∀ l ∈ W, Quiet l) :
    (∃ p p' ss, parseFileLines nv fn A = some ⟨some ⟨p, ss⟩, none⟩ ∧
      parseFileLines nv fn (A ++ W) = some ⟨some ⟨p', ss ++ commentsAt fn A W⟩, none⟩ ∧ (A ≠ [] → p' = p)) ∨
    ∃ m, parseFileLines nv fn A = some ⟨none, some (.parse fn (readLen A) (A.length + 1) 0 m)⟩ ∧
      parseFileLines nv fn (A ++ W) = some ⟨none, some (.parse fn (readLen (A ++ W)) (A.length + W.length + 1) 0 m)⟩ := by
  obtain ⟨cx, b, h⟩ := between_fronts hA
  obtain ⟨u1, h1⟩ := h [] (by simp)
  obtain ⟨u2, h2⟩ := h W (Quiet.heads hW)
  rw [List.append_nil] at h1
  have h2 := h2.lines (quiet_here _ hW cx u2)
  cases b with
  | none =>
    left
    obtain ⟨f, hf⟩ : ∃ f, Complete nv fn A f := by
      have hq : ∀ l ∈ [commentLine], Quiet l := by
        intro l hl
        rw [List.mem_singleton.1 hl]
        exact .inr ⟨[], rfl⟩
      obtain ⟨u3, h3⟩ := h [commentLine] (Quiet.heads hq)
      obtain ⟨rfl, ss, h4⟩ := front_none h3 rfl
      have h5 := Body.append h4 (quiet_here (mkEnv (A ++ [commentLine])) hq { top := true } u3)
      exact ⟨⟨_, ss⟩, (C52_lines ..).2 ⟨u3, h5, rfl⟩⟩
    obtain ⟨p, h6, h7⟩ := C61_alone nv fn A f hf
    have h8 := C61_append nv fn A W f _ hf ((C52_lines ..).2 (quiet_script hW)) (Quiet.heads hW)
      (fun n s _ _ => no_user_comments _ _)
    rw [comments_shift W (noCont_line fun l hl => quiet_none (hW l hl)), List.append_nil] at h8
    exact ⟨_, _, _, h6, h8, fun e => by rw [if_neg e, h7 e]⟩
  | some b =>
    right
    obtain ⟨m, hm⟩ : ∃ m, Unclosed b m := by
      cases b
      · exact ⟨_, .function⟩
      · exact ⟨_, .while_⟩
      · exact ⟨_, .for_⟩
      · exact ⟨_, .if_ (.inl (.inl rfl))⟩
      · exact ⟨_, .if_ (.inl (.inr rfl))⟩
      · exact ⟨_, .if_ (.inr rfl)⟩
      · exact ⟨_, .try_ (.inl (.inl rfl))⟩
      · exact ⟨_, .try_ (.inl (.inr rfl))⟩
      · exact ⟨_, .try_ (.inr rfl)⟩
    refine ⟨m, (C54_lines ..).2 ⟨rfl, rfl, _, readLen_eq A, rfl, rfl, .unclosed h1 hm⟩,
      (C54_lines ..).2 ⟨rfl, rfl, _, readLen_eq _, ?_, rfl, .unclosed h2 hm⟩⟩
    show _ = (A ++ W).length + 1
    simp

/-- Accepted, with a comment, and with an open block. -/
example : Between false cs!"f" [cs!"echo 1"] ∧ commentsAt cs!"f" [cs!"echo 1"] insW = [.comment ⟨11, 3, 4, cs!"f"⟩ cs!" é"] :=
  ⟨between_of (o := 7) (by decide +kernel), rfl⟩
example : Between false cs!"f" [cs!"while 1"] ∧
    errOf (parseFileLines false cs!"f" [cs!"while 1"]) = some (.parse cs!"f" 8 2 0 cs!"E170: Missing :endwhile:    TOPLEVEL") ∧
    errOf (parseFileLines false cs!"f" ([cs!"while 1"] ++ insW)) =
      some (.parse cs!"f" 19 5 0 cs!"E170: Missing :endwhile:    TOPLEVEL") :=
  ⟨between_of (o := 8) (by decide +kernel), by decide +kernel, by decide +kernel⟩

end Props
end Viml
