/-
Command names: the parser finds exactly the commands of the grammar.
-/
import Verif.Lemmas.FileMods

namespace Viml
open Prog Spec

section
variable {env : Env} {r r' : List Cell}

theorem lineIs_iff {l : Str} : LineIs r l ↔ l = lineS r := by
  unfold LineIs lineS
  constructor
  · rintro ⟨e, h⟩
    have := span_iff.1 (spanAll_iff.2 (show RestOf r l e from h))
    rw [this]
  · rintro rfl
    exact ⟨_, spanAll_iff.1 (span_iff.2 rfl)⟩

theorem lineIs_total (r : List Cell) : ∃ l, LineIs r l := ⟨_, lineIs_iff.2 rfl⟩

theorem lineIs_split {t s : Str} : LineIs r (t ++ s) ↔ ∃ r1, Reads r t r1 ∧ LineIs r1 s := by
  constructor
  · rintro ⟨e, h1, h2⟩
    obtain ⟨r1, h3, h4⟩ := h1.split
    exact ⟨r1, h3, e, h4, h2⟩
  · rintro ⟨r1, h1, e, h2, h3⟩
    exact ⟨e, h1.append h2, h3⟩

theorem lineIs_rest {t s : Str} {r1 : List Cell} (h : LineIs r (t ++ s)) (h1 : Reads r t r1) : LineIs r1 s := by
  obtain ⟨r2, h2, h3⟩ := lineIs_split.1 h
  rwa [h1.rest_unique h2]

theorem stopsAt_iff {f : Char → Bool} {s : Str} (h : LineIs r s) : StopsAt f s ↔ (headSym r).is f = false := by
  obtain ⟨e, h1, h2⟩ := h
  cases s with
  | nil =>
    rw [h1.unnil] at h2
    rw [atEnd_is h2]
    simp [StopsAt]
  | cons c s =>
    rw [h1.head]
    simp [StopsAt, Sym.is]

theorem reads_drop {t : Str} (h : Reads r t r') : r' = r.drop t.length := by
  obtain ⟨p, rfl, hp⟩ := h
  have := congrArg List.length hp
  simp at this
  rw [← this]
  simp

theorem ok_readCmdName {n : Str} : Ok env readCmdName r n r' ↔ n = (nameT (lineS r)).1 ∧ r' = r.drop (nameT (lineS r)).2 := by
  have h := readCmdName_run (T := tokGet) (env := env) (r := r) (F := fun _ => False)
  unfold wp at h
  unfold Ok
  cases hr : readCmdName.runWith tokGet env r with
  | fail e => rw [hr] at h; exact h.elim
  | ok x r1 =>
    rw [hr] at h
    obtain ⟨rfl, rfl⟩ := h
    constructor
    · intro h; cases h; exact ⟨rfl, rfl⟩
    · rintro ⟨rfl, rfl⟩; rfl

theorem ok_name {n : Str} : Ok env readCmdName r n r' ∧ n ≠ [] ↔ ∃ t s, LineIs r (t ++ s) ∧ NameOf n t s ∧ Reads r t r' := by
  rw [ok_readCmdName]
  constructor
  · rintro ⟨⟨rfl, rfl⟩, hne⟩
    have hN := nameT_spec (Prod.eta (nameT (lineS r))).symm hne
    have hk := (nameT_le (lineS r)).resolve_left hne
    refine ⟨_, _, ?_, hN, ?_⟩
    · rw [List.take_append_drop]; exact lineIs_iff.2 rfl
    · obtain ⟨r1, h1, _⟩ := lineIs_split.1 (lineIs_iff.2 (List.take_append_drop (nameT (lineS r)).2 (lineS r)))
      have := reads_drop h1
      rw [List.length_take, Nat.min_eq_left hk] at this
      rwa [← this]
  · rintro ⟨t, s, h1, h2, h3⟩
    obtain ⟨hne, hN⟩ := nameOf_iff.1 h2
    rw [← lineIs_iff.1 h1, hN]
    exact ⟨⟨rfl, reads_drop h3⟩, hne⟩

/-- A name with an upper case letter at the start is a word. -/
theorem name_upper {n : Str} (hu : Upper n) : Ok env readCmdName r n r' ↔ Span isalpha r n r' := by
  have hne : n ≠ [] := by rintro rfl; obtain ⟨_, _, h, _⟩ := hu; cases h
  constructor
  · intro h
    obtain ⟨t, s, h1, h2, h3⟩ := ok_name.1 ⟨h, hne⟩
    obtain ⟨rfl, h4, h5⟩ := h2.upper hu
    exact ⟨h3, h4, (stopsAt_iff (lineIs_rest h1 h3)).1 h5⟩
  · rintro ⟨h1, h2, h3⟩
    obtain ⟨s, hs⟩ := lineIs_total r'
    exact (ok_name.2 ⟨n, s, lineIs_split.2 ⟨r', h1, hs⟩, NameOf.of_upper hu h2 ((stopsAt_iff hs).2 h3), h1⟩).1

/-- The cache has the user commands `used`. -/
structure CacheRel (nv : Bool) (cache : List (Str × Option Cmd)) (used : List Str) : Prop where
  ok : CacheOK nv cache
  used : ∀ a, UserWord nv a → (a ∈ used ↔ (cache.lookup a).isSome = true)

theorem CacheRel.nil (nv : Bool) : CacheRel nv [] [] :=
  ⟨(by intro x hx; cases hx), (by intro a _; simp)⟩

theorem bind_readCmdName {β : Type} {f : Str → Prog β} {b : β} :
    Ok env (readCmdName >>= f) r b r' ↔ ∃ n r1, Ok env readCmdName r n r1 ∧ Ok env (f n) r1 b r' := ok_bind

/-- What the lookup does with a name. -/
theorem ok_findCommand {nv : Bool} {cache cache' : List (Str × Option Cmd)} {c : Cmd} :
    Ok env (findCommand nv cache) r (some c, cache') r' ↔ ∃ n r1, Ok env readCmdName r n r1 ∧ n ≠ [] ∧
      ((cache.lookup n = some (some c) ∧ cache' = cache ∧ r' = r1) ∨
      (cache.lookup n = none ∧ userName nv n = true ∧ ∃ w, Span isalnum r1 w r' ∧ c = userCommand (n ++ w) ∧
        cache' = (n ++ w, some c) :: cache) ∨
      (cache.lookup n = none ∧ userName nv n = false ∧ lookupTable nv n = some c ∧ cache' = (n, some c) :: cache ∧
        r' = r1)) := by
  unfold findCommand
  rw [bind_readCmdName]
  refine exists_congr fun n => exists_congr fun r1 => and_congr Iff.rfl ?_
  rw [ok_ite, ok_pure]
  constructor
  · rintro (⟨_, h, _⟩ | ⟨hne, h⟩)
    · cases h
    refine ⟨hne, ?_⟩
    cases hl : cache.lookup n with
    | some hit =>
      rw [hl] at h
      obtain ⟨h, rfl⟩ := ok_pure.1 h
      cases h
      exact .inl ⟨rfl, rfl, rfl⟩
    | none =>
      rw [hl] at h
      dsimp only at h
      rw [ok_ite] at h
      rcases h with ⟨hu, h⟩ | ⟨hu, h⟩
      · rw [readAlnum, bind_readWhile] at h
        obtain ⟨w, r2, h1, h2⟩ := h
        obtain ⟨h2, rfl⟩ := ok_pure.1 h2
        cases h2
        exact .inr (.inl ⟨rfl, hu, w, h1, rfl, rfl⟩)
      · obtain ⟨h2, rfl⟩ := ok_pure.1 h
        rw [Prod.mk.injEq] at h2
        refine .inr (.inr ⟨rfl, ?_, h2.1.symm, ?_, rfl⟩)
        · exact Bool.eq_false_iff.2 hu
        · rw [h2.2, h2.1]
  · rintro ⟨hne, h⟩
    refine .inr ⟨hne, ?_⟩
    rcases h with ⟨h, rfl, rfl⟩ | ⟨h, hu, w, h1, rfl, rfl⟩ | ⟨h, hu, h1, rfl, rfl⟩
    · rw [h]; exact ok_pure.2 ⟨rfl, rfl⟩
    · rw [h]
      dsimp only
      rw [if_pos (by exact hu), readAlnum, bind_readWhile]
      exact ⟨w, _, h1, ok_pure.2 ⟨rfl, rfl⟩⟩
    · rw [h]
      dsimp only
      have hu' : ¬ userName nv n = true := by simp [hu]
      rw [if_neg (by exact hu')]
      exact ok_pure.2 ⟨by rw [h1], rfl⟩

theorem lookup_cons_ne {a b : Str} {v : Option Cmd} {cache : List (Str × Option Cmd)} (h : a ≠ b) :
    ((b, v) :: cache).lookup a = cache.lookup a := by
  have : (a == b) = false := by simp [h]
  simp only [List.lookup, this]

theorem lookup_cons_self {a : Str} {v : Option Cmd} {cache : List (Str × Option Cmd)} :
    ((a, v) :: cache).lookup a = some v := by
  simp [List.lookup]

theorem findCommand_cacheOK {nv : Bool} {cache cache' : List (Str × Option Cmd)} {c : Option Cmd} (hc : CacheOK nv cache)
    (h : Ok env (findCommand nv cache) r (c, cache') r') : CacheOK nv cache' := by
  have := findCommand_spec (T := tokGet) (env := env) (r := r) hc (F := fun _ => False)
  unfold wp at this
  unfold Ok at h
  rw [h] at this
  exact this.1

theorem CmdName.of_ok {nv : Bool} {cache cache' : List (Str × Option Cmd)} {used : List Str} {c : Cmd}
    (hc : CacheRel nv cache used) (h : Ok env (findCommand nv cache) r (some c, cache') r') :
    ∃ used', CmdName nv used r c r' used' ∧ CacheRel nv cache' used' := by
  have hok := findCommand_cacheOK hc.ok h
  obtain ⟨n, r1, h1, hne, h⟩ := ok_findCommand.1 h
  obtain ⟨t, s, ht, hn, hr⟩ := ok_name.1 ⟨h1, hne⟩
  rcases h with ⟨hl, rfl, rfl⟩ | ⟨hl, hu, w, hw, rfl, rfl⟩ | ⟨hl, hu, htab, rfl, rfl⟩
  · have hres := hc.ok _ (lookup_mem hl)
    simp only [resolve] at hres
    refine ⟨used, ?_, hc⟩
    split at hres
    · rename_i hu
      have hu := userName_iff.1 hu
      cases hres
      exact .again ((name_upper hu.1).1 h1) hu ((hc.used _ hu).2 (by rw [hl]; rfl))
    · rename_i hu
      exact .table ht hn (lookupTable_iff.1 hres.symm) (mt userName_iff.2 hu) hr
  · have hu' := userName_iff.1 hu
    refine ⟨(n ++ w) :: used, .user ((name_upper hu'.1).1 h1) hu' ?_ hw, hok, ?_⟩
    · intro h
      rw [hc.used _ hu', hl] at h
      cases h
    · intro a ha
      by_cases he : a = n ++ w
      · subst he
        rw [lookup_cons_self]
        simp
      · rw [lookup_cons_ne he, ← hc.used a ha]
        simp [he]
  · have hu' : ¬ UserWord nv n := by rw [← userName_iff]; simp [hu]
    refine ⟨used, .table ht hn (lookupTable_iff.1 htab) hu' hr, hok, ?_⟩
    intro a ha
    have he : a ≠ n := by rintro rfl; exact hu' ha
    rw [lookup_cons_ne he, hc.used a ha]

theorem Spec.CmdName.ok {nv : Bool} {cache : List (Str × Option Cmd)} {used used' : List Str} {c : Cmd}
    (hc : CacheRel nv cache used) (h : CmdName nv used r c r' used') :
    ∃ cache', Ok env (findCommand nv cache) r (some c, cache') r' ∧ CacheRel nv cache' used' := by
  suffices ∃ cache', Ok env (findCommand nv cache) r (some c, cache') r' ∧
      ∀ a, UserWord nv a → (a ∈ used' ↔ (cache'.lookup a).isSome = true) by
    obtain ⟨cache', h1, h2⟩ := this
    exact ⟨cache', h1, findCommand_cacheOK hc.ok h1, h2⟩
  cases h with
  | @table n t s _ _ h1 h2 h3 h4 h5 =>
    obtain ⟨h6, hne⟩ := ok_name.2 ⟨t, s, h1, h2, h5⟩
    have hu : userName nv n = false := by rw [Bool.eq_false_iff]; exact mt userName_iff.1 h4
    cases hl : cache.lookup n with
    | some hit =>
      have hres := hc.ok _ (lookup_mem hl)
      simp only [resolve, hu, Bool.false_eq_true, if_false, lookupTable_iff.2 h3] at hres
      exact ⟨_, ok_findCommand.2 ⟨n, r', h6, hne, .inl ⟨by rw [hl, hres], rfl, rfl⟩⟩, hc.used⟩
    | none =>
      refine ⟨_, ok_findCommand.2 ⟨n, r', h6, hne, .inr (.inr ⟨hl, hu, lookupTable_iff.2 h3, rfl, rfl⟩)⟩, ?_⟩
      intro a ha
      have he : a ≠ n := by rintro rfl; exact h4 ha
      rw [lookup_cons_ne he, hc.used a ha]
  | @user a r1 b _ h1 h2 h3 h4 =>
    have hne : a ≠ [] := by rintro rfl; obtain ⟨_, _, h, _⟩ := h2.1; cases h
    have hl : cache.lookup a = none := by
      cases hl : cache.lookup a with
      | none => rfl
      | some x => exact absurd ((hc.used a h2).2 (by rw [hl]; rfl)) h3
    refine ⟨_, ok_findCommand.2 ⟨a, r1, (name_upper h2.1).2 h1, hne, .inr (.inl ⟨hl, userName_iff.2 h2, b, h4, rfl, rfl⟩)⟩, ?_⟩
    intro a' ha
    by_cases he : a' = a ++ b
    · subst he
      rw [lookup_cons_self]
      simp
    · rw [lookup_cons_ne he, ← hc.used a' ha]
      simp [he]
  | @again a _ h1 h2 h3 =>
    have hne : a ≠ [] := by rintro rfl; obtain ⟨_, _, h, _⟩ := h2.1; cases h
    obtain ⟨hit, hl⟩ := Option.isSome_iff_exists.1 ((hc.used a h2).1 h3)
    have hres := hc.ok _ (lookup_mem hl)
    simp only [resolve, userName_iff.2 h2, if_true] at hres
    refine ⟨_, ok_findCommand.2 ⟨a, r', (name_upper h2.1).2 h1, hne, .inl ⟨?_, rfl, rfl⟩⟩, hc.used⟩
    rw [hl, hres]
    rfl

theorem Spec.CmdName.reads {nv : Bool} {used used' : List Str} {c : Cmd} (h : CmdName nv used r c r' used') :
    ∃ t, Reads r t r' := by
  cases h with
  | table _ _ _ _ h => exact ⟨_, h⟩
  | user h1 _ _ h2 => exact ⟨_, h1.1.append h2.1⟩
  | again h _ _ => exact ⟨_, h.1⟩

end
end Viml
