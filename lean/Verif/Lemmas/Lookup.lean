/-
Command lookup as a function of the text of the line, and its agreement with the specification.
-/
import Verif.Lemmas.Swap
import Verif.Lemmas.StmtSound
import Verif.Spec.Lookup

namespace Viml
open Prog Spec

/-- The rest of the line. -/
def lineS (r : List Cell) : Str := (spanS (fun _ => true) r).1

theorem spanS_line (f : Char → Bool) (r : List Cell) :
    spanS f r = ((lineS r).takeWhile f, r.drop ((lineS r).takeWhile f).length) := by
  unfold lineS
  induction r with
  | nil => rfl
  | cons c r ih =>
    unfold spanS
    cases hc : c.c with
    | none => rfl
    | some ch =>
      simp only [if_true, List.takeWhile_cons]
      split
      · rw [ih]; simp
      · simp

theorem getnS_line (n : Nat) (r : List Cell) :
    getnS n r = ((lineS r).take n, r.drop (min n (lineS r).length)) := by
  unfold lineS
  induction n generalizing r with
  | zero => cases r <;> simp [getnS]
  | succ n ih =>
    cases r with
    | nil => simp [getnS, spanS]
    | cons c r =>
      unfold getnS spanS
      cases hc : c.c with
      | none => simp
      | some ch => simp [ih, Nat.succ_min_succ]

theorem lineS_drop (n : Nat) (r : List Cell) (h : n ≤ (lineS r).length) : lineS (r.drop n) = (lineS r).drop n := by
  unfold lineS at *
  induction n generalizing r with
  | zero => simp
  | succ n ih =>
    cases r with
    | nil => simp [spanS]
    | cons c r =>
      rw [List.drop_succ_cons]
      cases hc : c.c with
      | none => simp [spanS, hc] at h
      | some ch =>
        simp only [spanS, hc, if_true, List.length_cons] at h ⊢
        rw [ih r (by omega), List.drop_succ_cons]

/-- The name at the start of the text and the number of characters it takes up. -/
def nameT (l : Str) : Str × Nat :=
  if l.take 1 = cs!"k" then (cs!"k", 1)
  else if l.take 1 = cs!"s" ∧ isShortSubstitute (l.take 5) = true then (cs!"substitute", 1)
  else if isPunctCmd (l.take 1) then (l.take 1, 1)
  else if l.take 2 = cs!"py" then (l.takeWhile isalnum, (l.takeWhile isalnum).length)
  else if l.takeWhile isalpha ≠ cs!"del" ∧ isDeleteLP (l.takeWhile isalpha) = true then
    ((l.takeWhile isalpha).dropLast, (l.takeWhile isalpha).length - 1)
  else (l.takeWhile isalpha, (l.takeWhile isalpha).length)

theorem take1_len {l : Str} {c : Char} (h : l.take 1 = [c]) : min 1 l.length = 1 := by
  cases l with
  | nil => simp at h
  | cons => simp

theorem readCmdName_run {T : Env → List Cell → Res Token} {env : Env} {r : List Cell} {F : Fail → Prop} :
    wp T env readCmdName r (fun n r' => n = (nameT (lineS r)).1 ∧ r' = r.drop (nameT (lineS r)).2) F := by
  unfold readCmdName nameT
  have g : ∀ n, getnS n r = _ := fun n => getnS_line n r
  refine wp_bind (wp_peekn ?_)
  rw [show (getnS 1 r).1 = (lineS r).take 1 by rw [g]]
  refine wp_ite (fun h => ?_) (fun h => ?_)
  · refine wp_bind (wp_getn (wp_pure ?_))
    rw [if_pos h, g]
    exact ⟨rfl, by rw [take1_len h]⟩
  rw [if_neg h]
  refine wp_bind (wp_peekn ?_)
  rw [show (getnS 5 r).1 = (lineS r).take 5 by rw [g]]
  refine wp_ite (fun h => ?_) (fun h => ?_)
  · refine wp_bind (wp_getn (wp_pure ?_))
    rw [if_pos h, g]
    exact ⟨rfl, by rw [take1_len h.1]⟩
  rw [if_neg h]
  refine wp_ite (fun h => ?_) (fun h => ?_)
  · refine wp_bind (wp_getn (wp_pure ?_))
    rw [if_pos h, g]
    refine ⟨rfl, ?_⟩
    unfold isPunctCmd at h
    split at h
    · rename_i c hc
      rw [take1_len hc]
    · cases h
  rw [if_neg h]
  refine wp_bind (wp_peekn ?_)
  rw [show (getnS 2 r).1 = (lineS r).take 2 by rw [g]]
  refine wp_ite (fun h => ?_) (fun h => ?_)
  · refine wp_readWhile ?_
    rw [if_pos h, spanS_line]
    exact ⟨rfl, rfl⟩
  rw [if_neg h]
  refine wp_bind (wp_tell (wp_bind (wp_readWhile ?_)))
  rw [spanS_line]
  refine wp_ite (fun h => ?_) (fun h => ?_)
  · refine wp_bind (wp_seekSet (wp_getn ?_))
    rw [if_pos h, g]
    have hl : ((lineS r).takeWhile isalpha).length ≤ (lineS r).length := (List.takeWhile_sublist _).length_le
    refine ⟨?_, ?_⟩
    · show List.take (((lineS r).takeWhile isalpha).length - 1) (lineS r) = _
      obtain ⟨s, hs⟩ : (lineS r).takeWhile isalpha <+: lineS r := List.takeWhile_prefix isalpha
      rw [List.dropLast_eq_take]
      generalize (lineS r).takeWhile isalpha = w at *
      rw [← hs, List.take_append_of_le_length (by omega)]
    · show List.drop _ r = List.drop _ r
      congr 1
      simp only
      omega
  · rw [if_neg h]
    exact wp_pure ⟨rfl, rfl⟩

/-! ### The name -/

theorem takeWhile_of {f : Char → Bool} {n s : Str} (h : ∀ c ∈ n, f c = true) (hs : StopsAt f s) :
    (n ++ s).takeWhile f = n := by
  induction n with
  | nil =>
    cases s with
    | nil => rfl
    | cons c s => simp [hs c rfl]
  | cons c n ih =>
    rw [List.cons_append, List.takeWhile_cons, if_pos (h c (by simp)), ih fun x hx => h x (by simp [hx])]

theorem takeWhile_split (f : Char → Bool) (l : Str) :
    ∃ s, l = l.takeWhile f ++ s ∧ (∀ c ∈ l.takeWhile f, f c = true) ∧ StopsAt f s := by
  refine ⟨l.dropWhile f, List.takeWhile_append_dropWhile.symm, fun c hc => List.all_eq_true.1 List.all_takeWhile c hc, ?_⟩
  intro c hc
  induction l with
  | nil => simp at hc
  | cons a l ih =>
    rw [List.dropWhile_cons] at hc
    split at hc
    · exact ih hc
    · rename_i hf
      simp at hc
      subst hc
      simpa using hf

theorem shortSub_iff (l : Str) : l.take 1 = cs!"s" ∧ isShortSubstitute (l.take 5) = true ↔ ShortSub l := by
  constructor
  · rintro ⟨h1, h2⟩
    have key : ∀ m, isShortSubstitute m = true → ShortSub m := by
      intro m hm
      unfold isShortSubstitute at hm
      split at hm
      · simp at hm
        exact ⟨_, .c hm.1.1.1 hm.1.1.2 hm.1.2 hm.2, _, rfl⟩
      · exact ⟨_, .g, _, rfl⟩
      · simp at hm
        exact ⟨_, .i hm.1.1 hm.1.2 hm.2, _, rfl⟩
      · exact ⟨_, .bigI, _, rfl⟩
      · simp at hm
        exact ⟨_, .r hm, _, rfl⟩
      · cases hm
    obtain ⟨x, hx, hp⟩ := key _ h2
    exact ⟨x, hx, hp.trans (List.take_prefix _ _)⟩
  · rintro ⟨x, hx, s, rfl⟩
    cases hx <;> simp_all [isShortSubstitute]

theorem deleteFlag_iff (w : Str) : w ≠ cs!"del" ∧ isDeleteLP w = true ↔ DeleteFlag w := by
  unfold DeleteFlag
  refine and_congr Iff.rfl ?_
  unfold isDeleteLP deleteAbbrevs
  constructor
  · intro h
    simp only [List.any_cons, List.any_nil, Bool.or_false, Bool.or_eq_true, beq_iff_eq] at h
    rcases h with (h | h) | (h | h) | (h | h) | (h | h) | (h | h)
    all_goals exact ⟨_, _, h, by simp, by simp⟩
  · rintro ⟨t, c, rfl, ht, hc⟩
    simp only [List.mem_cons, List.not_mem_nil, or_false] at ht
    rcases ht with rfl | rfl | rfl | rfl | rfl <;> rcases hc with rfl | rfl <;> decide

theorem prefix_take {p l : Str} : l.take p.length = p ↔ p <+: l := by
  constructor
  · intro h; exact ⟨l.drop p.length, by conv => lhs; lhs; rw [← h]
                                        exact List.take_append_drop ..⟩
  · rintro ⟨s, rfl⟩; simp

theorem nameT_spec {n l : Str} {k : Nat} (h : nameT l = (n, k)) (hne : n ≠ []) :
    NameOf n (l.take k) (l.drop k) := by
  unfold nameT at h
  split at h
  · rename_i h1
    cases h
    rw [h1]
    exact .k
  rename_i hk
  split at h
  · rename_i h1
    cases h
    have h2 := (shortSub_iff l).1 h1
    rw [h1.1]
    refine .sub ?_
    have : 's' :: l.drop 1 = l := by
      have := List.take_append_drop 1 l
      rw [h1.1] at this
      exact this
    rwa [this]
  rename_i hsub
  have hsub := mt (shortSub_iff l).2 hsub
  split at h
  · rename_i h1
    cases h
    unfold isPunctCmd at h1
    split at h1
    · rename_i c hc
      rw [hc]
      exact .punct (by simpa [List.contains_iff_mem] using h1)
    · cases h1
  rename_i hp
  split at h
  · rename_i h1
    cases h
    obtain ⟨s, h2, h3, h4⟩ := takeWhile_split isalnum l
    have hpre : cs!"py" <+: l.takeWhile isalnum := by
      obtain ⟨m, rfl⟩ := (prefix_take (p := cs!"py")).1 h1
      refine ⟨m.takeWhile isalnum, ?_⟩
      simp [show isalnum 'p' = true by decide, show isalnum 'y' = true by decide]
    generalize l.takeWhile isalnum = w at *
    subst h2
    simpa using NameOf.py hpre h3 h4
  rename_i hpy
  have hpy : ¬ cs!"py" <+: l := mt (prefix_take (p := cs!"py")).2 hpy
  obtain ⟨s, h2, h3, h4⟩ := takeWhile_split isalpha l
  generalize l.takeWhile isalpha = w at *
  subst h2
  split at h
  · rename_i h1
    cases h
    have hd := (deleteFlag_iff _).1 h1
    obtain ⟨_, t, c, rfl, _⟩ := hd
    have := NameOf.delete ((deleteFlag_iff _).1 h1) h4
    simpa using this
  · rename_i h1
    cases h
    have := NameOf.word hne h3 h4 (fun h => hk ?_) hsub (fun h => hpy (h.trans (List.prefix_append _ _)))
      (mt (deleteFlag_iff _).2 h1)
    · simpa using this
    · exact (prefix_take (p := cs!"k")).2 (h.trans (List.prefix_append _ _))

/-- The name in the specification is the one found by `nameT`. -/
theorem nameOf_iff {n t s : Str} : NameOf n t s ↔ n ≠ [] ∧ nameT (t ++ s) = (n, t.length) := by
  constructor
  · intro h
    cases h with
    | k => exact ⟨by simp, by simp [nameT]⟩
    | sub h =>
      refine ⟨by simp, ?_⟩
      have := (shortSub_iff _).2 h
      simp only [nameT]
      rw [if_neg (by simp)]
      exact if_pos this
    | @punct c _ h =>
      refine ⟨by simp, ?_⟩
      simp only [List.mem_cons, List.not_mem_nil, or_false] at h
      rcases h with rfl | rfl | rfl | rfl | rfl | rfl | rfl | rfl | rfl <;> simp [nameT, isPunctCmd]
    | py h1 h2 h3 =>
      obtain ⟨m, rfl⟩ := h1
      refine ⟨by simp, ?_⟩
      simp only [nameT]
      rw [if_neg (by simp), if_neg (by simp), if_neg (by simp [isPunctCmd]), if_pos (by simp), takeWhile_of h2 h3]
    | @delete _ s c h1 h2 =>
      have hd := (deleteFlag_iff _).2 h1
      have hw : (n ++ c :: s).takeWhile isalpha = n ++ [c] := by
        have hal : ∀ x ∈ n ++ [c], isalpha x = true := by
          obtain ⟨_, t', c', e, ht, hc⟩ := h1
          obtain ⟨rfl, rfl⟩ : n = t' ∧ c = c' := by simpa using e
          simp only [deleteAbbrevs, List.mem_cons, List.not_mem_nil, or_false] at ht
          rcases ht with rfl | rfl | rfl | rfl | rfl <;> rcases hc with rfl | rfl <;> decide
        have := takeWhile_of hal h2
        simpa using this
      have hh : ∃ t', n = 'd' :: 'e' :: t' := by
        obtain ⟨_, t', c', e, ht, hc⟩ := h1
        obtain ⟨rfl, rfl⟩ : n = t' ∧ c = c' := by simpa using e
        simp only [deleteAbbrevs, List.mem_cons, List.not_mem_nil, or_false] at ht
        rcases ht with rfl | rfl | rfl | rfl | rfl <;> exact ⟨_, rfl⟩
      obtain ⟨t', rfl⟩ := hh
      refine ⟨by simp, ?_⟩
      simp only [nameT]
      rw [if_neg (by simp), if_neg (by simp), if_neg (by simp [isPunctCmd]), if_neg (by simp), hw, if_pos hd, List.dropLast_concat]
      simp
    | word h1 h2 h3 h4 h5 h6 h7 =>
      refine ⟨h1, ?_⟩
      have hk : ¬ (n ++ s).take 1 = cs!"k" := by
        intro h
        apply h4
        cases n with
        | nil => exact absurd rfl h1
        | cons c n => simp at h; subst h; exact ⟨n, rfl⟩
      have hp : ¬ isPunctCmd ((n ++ s).take 1) = true := by
        cases n with
        | nil => exact absurd rfl h1
        | cons c n =>
          have hc := h2 c (by simp)
          simp only [List.cons_append, List.take_succ_cons, List.take_zero, isPunctCmd]
          intro hm
          simp only [List.contains_iff_mem, List.mem_cons, List.not_mem_nil, or_false] at hm
          rcases hm with rfl | rfl | rfl | rfl | rfl | rfl | rfl | rfl | rfl <;> exact absurd hc (by decide)
      have hy : ¬ (n ++ s).take 2 = cs!"py" := by
        intro h
        apply h6
        cases n with
        | nil => exact absurd rfl h1
        | cons c n =>
          cases n with
          | nil =>
            cases s with
            | nil => simp at h
            | cons d s =>
              simp at h
              have := h3 d rfl
              rw [h.2] at this
              exact absurd this (by decide)
          | cons d n => simp at h; obtain ⟨rfl, rfl⟩ := h; exact ⟨n, rfl⟩
      simp only [nameT]
      rw [if_neg hk, if_neg (mt (shortSub_iff _).1 h5), if_neg hp, if_neg hy, takeWhile_of h2 h3,
        if_neg (mt (deleteFlag_iff _).1 h7)]
  · rintro ⟨hne, h⟩
    have := nameT_spec h hne
    simpa using this

/-! ### The tables -/

theorem matches_iff {n : Str} {c : Cmd} : c.matches n = true ↔ Abbrev n c := by
  simp [Cmd.matches, Abbrev, List.isPrefixOf_iff_prefix]

theorem find_iff {T : List Cmd} {n : Str} {c : Cmd} : T.find? (·.matches n) = some c ↔ FirstOf T n c := by
  rw [List.find?_eq_some_iff_append]
  simp only [matches_iff, FirstOf, Bool.not_eq_true']
  constructor
  · rintro ⟨h, a, b, e, hn⟩
    exact ⟨a, b, e, h, fun x hx hab => by have := hn x hx; rw [matches_iff.2 hab] at this; cases this⟩
  · rintro ⟨a, b, e, h, hn⟩
    refine ⟨h, a, b, e, fun x hx => ?_⟩
    cases hm : x.matches n with
    | false => rfl
    | true => exact absurd (matches_iff.1 hm) (hn x hx)

theorem find_none_iff {T : List Cmd} {n : Str} : T.find? (·.matches n) = none ↔ ∀ x ∈ T, ¬ Abbrev n x := by
  rw [List.find?_eq_none]
  simp only [matches_iff]

theorem lookupTable_iff {nv : Bool} {n : Str} {c : Cmd} : lookupTable nv n = some c ↔ TableCmd nv n c := by
  unfold lookupTable TableCmd
  cases nv with
  | false => exact find_iff
  | true =>
    simp only [if_true]
    have hrm : neovimRemovedCommands.any (·.matches n) = true ↔ ¬ ∀ x ∈ neovimRemovedCommands, ¬ Abbrev n x := by
      simp [matches_iff]
    split
    · rename_i h
      exact ⟨fun h => (nomatch h), fun hc => absurd hc.1 (hrm.1 h)⟩
    · rename_i h
      have h' := Classical.not_not.1 (mt hrm.2 h)
      cases ha : neovimAdditionalCommands.find? (·.matches n) with
      | none =>
        have hn := find_none_iff.1 ha
        simp only
        rw [find_iff]
        refine ⟨fun hb => ⟨h', .inr ⟨hn, hb⟩⟩, ?_⟩
        rintro ⟨_, ⟨a, b, e, hx, _⟩ | ⟨_, hb⟩⟩
        · exact absurd hx (hn c (by rw [e]; simp))
        · exact hb
      | some d =>
        simp only
        rw [← ha, find_iff]
        refine ⟨fun hb => ⟨h', .inl hb⟩, ?_⟩
        rintro ⟨_, hb | ⟨hn, _⟩⟩
        · exact hb
        · rw [find_none_iff.2 hn] at ha
          cases ha

theorem startsUpper_iff {n : Str} : startsUpper n = true ↔ Upper n := by
  cases n with
  | nil => simp [startsUpper, Upper]
  | cons c n =>
    simp only [startsUpper, Upper, isUpperC, Bool.and_eq_true, decide_eq_true_eq]
    constructor
    · rintro ⟨h1, h2⟩
      exact ⟨c, n, rfl, h1, h2⟩
    · rintro ⟨_, _, h, h1, h2⟩
      cases h
      exact ⟨h1, h2⟩

theorem userName_iff {nv : Bool} {n : Str} : userName nv n = true ↔ UserWord nv n := by
  unfold userName UserWord
  rw [Bool.and_eq_true, startsUpper_iff, and_comm]
  refine and_congr Iff.rfl ?_
  cases h : lookupTable nv n with
  | none =>
    simp only [true_iff]
    intro c hc
    rw [lookupTable_iff.2 hc] at h
    cases h
  | some c =>
    simp only [beq_iff_eq]
    constructor
    · intro hp d hd
      rw [lookupTable_iff.2 hd] at h
      cases h
      exact hp
    · intro h'
      exact h' c (lookupTable_iff.1 h)

/-! ### The command -/

/-- The command at the start of the text and the number of characters of its name. -/
def cmdT (nv : Bool) (l : Str) : Option Cmd × Nat :=
  if (nameT l).1 = [] then (none, (nameT l).2)
  else if userName nv (nameT l).1 then
    (some (userCmd ((nameT l).1 ++ (l.drop (nameT l).2).takeWhile isalnum)),
      (nameT l).2 + ((l.drop (nameT l).2).takeWhile isalnum).length)
  else (lookupTable nv (nameT l).1, (nameT l).2)

/-- The cache shortens the name: the letters of the name are in the cache as a user command, and a digit
follows. -/
def Clash (nv : Bool) (cache : List (Str × Option Cmd)) (l : Str) : Prop :=
  userName nv (nameT l).1 = true ∧ (cache.lookup (nameT l).1).isSome = true ∧
    (l.drop (nameT l).2).takeWhile isalnum ≠ []

theorem nameT_le (l : Str) : (nameT l).1 = [] ∨ (nameT l).2 ≤ l.length := by
  by_cases h : (nameT l).1 = []
  · exact .inl h
  refine .inr ?_
  have h2 := (takeWhile_split isalpha l)
  have h3 := (takeWhile_split isalnum l)
  have hp1 : ∀ c, l.take 1 = [c] → 1 ≤ l.length := fun c h => by
    cases l with
    | nil => simp at h
    | cons => simp
  have ha : (l.takeWhile isalpha).length ≤ l.length := (List.takeWhile_sublist _).length_le
  have hb : (l.takeWhile isalnum).length ≤ l.length := (List.takeWhile_sublist _).length_le
  unfold nameT
  split
  · exact hp1 _ ‹_›
  split
  · exact hp1 _ (‹_ ∧ _›).1
  split
  · rename_i hp
    unfold isPunctCmd at hp
    split at hp
    · exact hp1 _ ‹_›
    · cases hp
  split
  · exact hb
  split
  · simp only; omega
  · exact ha

theorem findCommand_run {T : Env → List Cell → Res Token} {env : Env} {r : List Cell} {nv : Bool}
    {cache : List (Str × Option Cmd)} (hc : CacheOK nv cache) (hd : ¬ Clash nv cache (lineS r)) {F : Fail → Prop} :
    wp T env (findCommand nv cache) r (fun x r' =>
      x.1 = (cmdT nv (lineS r)).1 ∧ r' = r.drop (cmdT nv (lineS r)).2) F := by
  unfold findCommand
  refine wp_call readCmdName_run ?_
  rintro name r1 ⟨hn, hr1⟩
  unfold cmdT
  have hle := nameT_le (lineS r)
  unfold Clash at hd
  generalize hN : nameT (lineS r) = N at *
  obtain ⟨n, k⟩ := N
  simp only at hn hr1 hd hle ⊢
  subst hn
  refine wp_ite (fun h => wp_pure ?_) (fun hne => ?_)
  · rw [if_pos h]
    exact ⟨rfl, hr1⟩
  rw [if_neg hne]
  have hk : k ≤ (lineS r).length := hle.resolve_left hne
  have hl1 : lineS r1 = (lineS r).drop k := by rw [hr1, lineS_drop _ _ hk]
  cases hl : cache.lookup name with
  | some hit =>
    refine wp_pure ?_
    have hres := hc _ (lookup_mem hl)
    simp only [resolve] at hres
    split at hres
    · rename_i hu
      have : ((lineS r).drop k).takeWhile isalnum = [] := by
        refine Classical.byContradiction fun hne => hd ⟨hu, by rw [hl]; rfl, hne⟩
      rw [if_pos hu, this]
      simpa using ⟨hres, hr1⟩
    · rename_i hu
      rw [if_neg hu]
      exact ⟨hres, hr1⟩
  | none =>
    refine wp_ite (fun hu => ?_) (fun hu => ?_)
    · rw [if_pos (show userName nv name = true from hu)]
      refine wp_bind (wp_readWhile (wp_pure ?_))
      rw [spanS_line, hl1]
      refine ⟨rfl, ?_⟩
      rw [hr1, List.drop_drop]
    · rw [if_neg (show ¬ userName nv name = true from hu)]
      exact wp_pure ⟨rfl, hr1⟩

theorem upper_lt {n : Str} {c : Char} (h : Upper (c :: n)) : 'A' ≤ c ∧ c ≤ 'Z' := by
  obtain ⟨_, _, e, h⟩ := h
  cases e
  exact h

/-- An upper case name is typed in full, letters only. -/
theorem Spec.NameOf.upper {n t s : Str} (h : NameOf n t s) (hu : Upper n) :
    t = n ∧ (∀ c ∈ n, isalpha c = true) ∧ StopsAt isalpha s := by
  cases h with
  | k => exact absurd (upper_lt hu) (by decide)
  | sub _ => exact absurd (upper_lt hu) (by decide)
  | punct h =>
    have := upper_lt hu
    simp only [List.mem_cons, List.not_mem_nil, or_false] at h
    rcases h with rfl | rfl | rfl | rfl | rfl | rfl | rfl | rfl | rfl <;> exact absurd this (by decide)
  | py h _ _ =>
    obtain ⟨m, rfl⟩ := h
    exact absurd (upper_lt hu) (by decide)
  | delete h _ =>
    obtain ⟨_, t', c', e, ht, hc⟩ := h
    obtain ⟨rfl, _⟩ := List.append_inj' e rfl
    simp only [deleteAbbrevs, List.mem_cons, List.not_mem_nil, or_false] at ht
    rcases ht with rfl | rfl | rfl | rfl | rfl <;> exact absurd (upper_lt hu) (by decide)
  | word _ h1 h2 => exact ⟨rfl, h1, h2⟩

theorem Spec.NameOf.of_upper {n s : Str} (hu : Upper n) (ha : ∀ c ∈ n, isalpha c = true) (hs : StopsAt isalpha s) :
    NameOf n n s := by
  obtain ⟨c, m, rfl, h1, h2⟩ := hu
  have hlt := And.intro h1 h2
  refine .word (by simp) ha hs ?_ ?_ ?_ ?_
  · rintro ⟨_, h⟩
    cases h
    exact absurd hlt (by decide)
  · rintro ⟨_, _, _, h⟩
    rw [List.cons_append, List.cons_append] at h
    injection h with h _
    rw [← h] at hlt
    exact absurd hlt (by decide)
  · rintro ⟨_, h⟩
    cases h
    exact absurd hlt (by decide)
  · rintro ⟨_, t, d, e, ht, _⟩
    simp only [deleteAbbrevs, List.mem_cons, List.not_mem_nil, or_false] at ht
    rcases ht with rfl | rfl | rfl | rfl | rfl <;> cases e <;> exact absurd hlt (by decide)

/-- The command in the specification is the one found by `cmdT`. -/
theorem cmdOf_iff {nv : Bool} {c : Cmd} {t s : Str} :
    CmdOf nv c t s ↔ cmdT nv (t ++ s) = (some c, t.length) := by
  constructor
  · intro h
    cases h with
    | table h1 h2 h3 =>
      obtain ⟨hne, hN⟩ := nameOf_iff.1 h1
      unfold cmdT
      rw [hN]
      simp only
      rw [if_neg hne, if_neg (mt userName_iff.1 h3), lookupTable_iff.2 h2]
    | @user a b _ h1 h2 h3 h4 h5 =>
      have hst : StopsAt isalpha (b ++ s) := by
        cases b with
        | cons => exact h2
        | nil =>
          intro c hc
          have := h5 c hc
          simp only [isalnum, Bool.or_eq_false_iff] at this
          exact this.2
      obtain ⟨hne, hN⟩ := nameOf_iff.1 (NameOf.of_upper h3.1 h1 hst)
      unfold cmdT
      rw [List.append_assoc, hN]
      simp only
      rw [if_neg hne, if_pos (userName_iff.2 h3), List.drop_left, takeWhile_of h4 h5, List.length_append]
      rfl
  · intro h
    unfold cmdT at h
    have hle := nameT_le (t ++ s)
    generalize hN : nameT (t ++ s) = N at *
    obtain ⟨n, k⟩ := N
    simp only at h hle
    split at h
    · cases h
    rename_i hne
    have hname := nameT_spec hN hne
    have hk := hle.resolve_left hne
    split at h
    · rename_i hu
      have hu := userName_iff.1 hu
      obtain ⟨e, ha, hs⟩ := hname.upper hu.1
      obtain ⟨s', h2, h3, h4⟩ := takeWhile_split isalnum ((t ++ s).drop k)
      generalize ((t ++ s).drop k).takeWhile isalnum = w at *
      have hts : t ++ s = (n ++ w) ++ s' := by
        rw [← List.take_append_drop k (t ++ s), e, h2, List.append_assoc]
      simp only [Prod.mk.injEq, Option.some.injEq] at h
      have hkl : k = n.length := by rw [← e, List.length_take]; omega
      obtain ⟨rfl, rfl⟩ := List.append_inj hts (by rw [List.length_append]; omega)
      rw [← h.1]
      refine .user ha ?_ hu h3 h4
      rw [h2] at hs
      intro c hc
      refine hs c ?_
      cases w with
      | nil => cases hc
      | cons => exact hc
    · rename_i hu
      simp only [Prod.mk.injEq] at h
      obtain ⟨h1, rfl⟩ := h
      rw [List.take_left, List.drop_left] at hname
      exact .table hname (lookupTable_iff.1 h1) (mt userName_iff.2 hu)

end Viml
