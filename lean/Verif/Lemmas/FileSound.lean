/-
What the parser accepts follows the file grammar.
-/
import Verif.Lemmas.FileStep
import Verif.Props.Blocks

namespace Viml
open Prog Spec Props

section
variable {nv : Bool} {fn : Str} {lines : List Str}

/-- The invariant holds between any two commands. -/
theorem reach_cur {st : PState} {r : List Cell} (h : Reach nv lines st r) :
    ∃ cx used, Cur nv (mkEnv lines) fn cx st.cur st.stack used r ∧ CacheRel nv st.cache used := by
  induction h with
  | start => exact ⟨_, [], .mk .top .nil rfl ⟨rfl, rfl, rfl, rfl⟩ rfl, .nil nv⟩
  | @next st st' r r' h1 hne h ih =>
    obtain ⟨cx, used, k1, k2⟩ := ih
    obtain ⟨ho, hs⟩ := h1.ok
    have hn := h1.neovim
    subst hn
    obtain ⟨cx', used', k3, k4, _⟩ := step_sound (mkEnv_ok lines) hs ho k2 k1 hne h
    exact ⟨cx', used', k3, k4⟩

theorem ok_finishTop {env : Env} {q : Pos} {st : PState} {f : VFile} {r r' : List Cell}
    (h : Ok env (finishTop q st) r f r') : st.cur.head.isToplevel = true ∧ f = ⟨q, (collapse st.cur st.stack).body⟩ := by
  unfold finishTop checkMissingEndfunction checkMissingEndif checkMissingEndtry checkMissingEndwhile checkMissingEndfor at h
  rw [bind_getpos, bind_check, bind_check, bind_check, bind_check, bind_check, ok_pure] at h
  obtain ⟨h1, h2, h3, h4, h5, rfl, _⟩ := h
  refine ⟨?_, rfl⟩
  cases hh : st.cur.head <;> rw [hh] at h1 h2 h3 h4 h5 <;> first | rfl | (cases h1; done) | (cases h2; done) | (cases h3; done) | (cases h4; done) | (cases h5; done)

theorem script_sound {f : VFile} {a : Ast.File} {r : List Cell}
    (h : (parseToplevel nv).run (mkEnv lines) (mkEnv lines).buf = .ok f r) (ha : Export.file fn f = some a) :
    Script nv (mkEnv lines) fn a := by
  rw [parseToplevel_run] at h
  cases hc : (parseCmds (st0 nv)).run (mkEnv lines) (mkEnv lines).buf with
  | fail e => rw [hc] at h; cases h
  | ok st r' =>
    rw [hc] at h
    obtain ⟨rfl, hr⟩ := cmds_reach _ (Nat.le_refl _) .start hc
    obtain ⟨ht, rfl⟩ := ok_finishTop h
    obtain ⟨cx, used, hcur, _⟩ := reach_cur (fn := fn) hr
    obtain ⟨nv', ⟨hd', b, e1, e2, e3, e4⟩, stk, cache⟩ := st
    cases hcur with
    | mk g1 g2 g3 g4 g5 =>
      dsimp only at g1 g3 ht
      cases g1 with
      | top =>
        simp only [collapse, Export.file, g3, List.nil_append] at ha
        cases ha
        exact ⟨used, g2, rfl⟩
      | _ => cases ht

end
end Viml
