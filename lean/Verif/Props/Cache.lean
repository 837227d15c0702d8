/-
C09: the memo tables of the tokenizers.
-/
import Verif.Model.Cache
import Verif.Model.Api

namespace Viml.Props
open Viml

/-- Every entry of a table is what the tokenizer would read. -/
def Valid (env : Env) (c : TokCache) : Prop := ∀ e ∈ c, tokGet env e.1 = .ok e.2.2 e.2.1

theorem find_valid {env : Env} {c : TokCache} (h : Valid env c) {r r' : List Cell} {t : Token}
    (hf : c.find r = some (r', t)) : tokGet env r = .ok t r' := by
  unfold TokCache.find at hf
  rw [Option.map_eq_some_iff] at hf
  obtain ⟨⟨r0, x⟩, h1, h2⟩ := hf
  have h3 := List.mem_of_find?_eq_some h1
  have h4 := List.find?_some h1
  simp only [beq_iff_eq] at h4
  subst h4
  have := h _ h3
  simp only at h2
  subst h2
  exact this

/-- A read through a valid table gives what the tokenizer reads, and leaves the table valid. -/
theorem cachedGet_valid {env : Env} {c : TokCache} (h : Valid env c) (r : List Cell) :
    (cachedGet env c r).1 = tokGet env r ∧ Valid env (cachedGet env c r).2 := by
  unfold cachedGet
  cases hf : c.find r with
  | some x => exact ⟨(find_valid h hf).symm, h⟩
  | none =>
    cases ht : tokGet env r with
    | fail e => exact ⟨rfl, h⟩
    | ok t r' =>
      refine ⟨rfl, ?_⟩
      intro e he
      rcases List.mem_cons.1 he with rfl | he
      · exact ht
      · exact h e he

/-- C09.  Any execution with memo tables that were filled by reading, in whatever way the tokenizers are used,
gives the result of the execution without them, and leaves such tables behind. -/
theorem C09_same {env : Env} {α : Type} {m : Prog α} {r : List Cell} {ts ts' : Nat → TokCache} {x : Res α}
    (h : RunsC env m r ts x ts') (hv : ∀ i, Valid env (ts i)) : x = m.run env r ∧ ∀ i, Valid env (ts' i) := by
  unfold Prog.run
  induction h with
  | ret => exact ⟨rfl, hv⟩
  | fail => exact ⟨rfl, hv⟩
  | ask _ ih => exact ih hv
  | tell _ ih => exact ih hv
  | seek _ ih => exact ih hv
  | @tokOk k r ts t r' c x ts' i h1 _ ih =>
    have h2 := cachedGet_valid (hv i) r
    rw [h1] at h2
    rw [Prog.runWith, ← h2.1]
    refine ih fun j => ?_
    dsimp only
    split
    · exact h2.2
    · exact hv j
  | @tokFail k r ts e c i h1 =>
    have h2 := cachedGet_valid (hv i) r
    rw [h1] at h2
    rw [Prog.runWith, ← h2.1]
    refine ⟨rfl, fun j => ?_⟩
    dsimp only
    split
    · exact h2.2
    · exact hv j

/-- An execution in which a given rule says which tokenizer is asked. -/
def runC (env : Env) (pick : List Cell → (Nat → TokCache) → Nat) {α : Type} :
    Prog α → List Cell → (Nat → TokCache) → Res α × (Nat → TokCache)
  | .ret a, r, ts => (.ok a r, ts)
  | .fail e, _, ts => (.fail e, ts)
  | .ask k, r, ts => runC env pick (k env) r ts
  | .tell k, r, ts => runC env pick (k r) r ts
  | .seek s k, _, ts => runC env pick k s ts
  | .tok k, r, ts =>
    match cachedGet env (ts (pick r ts)) r with
    | (.ok t r', c) => runC env pick (k t) r' (fun j => if j = pick r ts then c else ts j)
    | (.fail e, c) => (.fail e, fun j => if j = pick r ts then c else ts j)

/-- C09.  Such executions exist for every rule. -/
theorem C09_exists (env : Env) {α : Type} (pick : List Cell → (Nat → TokCache) → Nat) (m : Prog α) (r : List Cell)
    (ts : Nat → TokCache) : RunsC env m r ts (runC env pick m r ts).1 (runC env pick m r ts).2 := by
  induction m generalizing r ts with
  | ret a => exact .ret
  | fail e => exact .fail
  | ask k ih => exact .ask (ih env r ts)
  | tell k ih => exact .tell (ih r r ts)
  | seek s k ih => exact .seek (ih s ts)
  | tok k ih =>
    rw [runC]
    rcases hg : cachedGet env (ts (pick r ts)) r with ⟨x, c⟩
    cases x with
    | ok t r' => exact .tokOk _ hg (ih t r' _)
    | fail e => exact .tokFail _ hg

/-- C09 for the parser of files: with tables that start empty, the result is the one all other theorems are
about. -/
theorem C09_parseFile {nv : Bool} {src : List UInt8} {x : Res VFile} {ts' : Nat → TokCache}
    (h : RunsC (envOfBytes src) (parseToplevel nv) (envOfBytes src).buf (fun _ => []) x ts') :
    x = (parseToplevel nv).run (envOfBytes src) (envOfBytes src).buf :=
  (C09_same h fun _ _ he => absurd he List.not_mem_nil).1

/-- Two reads at the same place: the second one through the same table finds the entry of the first (there is
one entry only), and gives the same token. -/
example : (match runC (mkEnv [cs!" foo"]) (fun _ _ => 0) (do let s ← tell; let a ← tokget; seekSet s; let b ← tokget; pure (a, b))
      (mkEnv [cs!" foo"]).buf (fun _ => []) with
    | (.ok (a, b) _, ts) => a.value == cs!"foo" && a == b && (ts 0).length == 1
    | _ => false) = true := by decide +kernel

/-- A table with a wrong entry would be noticed. -/
example : (match runC (mkEnv [cs!"foo"]) (fun _ _ => 0) tokget (mkEnv [cs!"foo"]).buf
      (fun _ => [((mkEnv [cs!"foo"]).buf, [], ⟨.number, cs!"1", default⟩)]) with
    | (.ok a _, _) => a.value == cs!"1"
    | _ => false) = true := by decide +kernel

/-- The whole parser with one table for all tokenizers. -/
example : (match runC (mkEnv [cs!"let x = (a)"]) (fun _ _ => 0) (parseToplevel false) (mkEnv [cs!"let x = (a)"]).buf (fun _ => []) with
    | (.ok f _, ts) => f.body.length == 1 && (ts 0).length == 6
    | _ => false) = true := by decide +kernel

end Viml.Props
