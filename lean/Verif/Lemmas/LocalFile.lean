/-
Errors of command lines in the first lines of a file (`Local.lean`).
-/
import Verif.Lemmas.LocalExpr

namespace Viml
open Spec Ast

variable {env env' : Env} {fn : Str} {κ : Cutter env env' fn} {r r' r1 r2 rc : List Cell}

theorem onPos_unlockable {f : Ast.Pos → Ast.Pos} {e : Expr} {m : Str} (h : Unlockable e m) : Unlockable (e.onPos f) m := by
  cases h <;> simp only [Expr.onPos] <;> constructor

theorem onPos_noCall {f : Ast.Pos → Ast.Pos} {e : Expr} (h : ∀ f p as, e ≠ .call f p as) :
    ∀ g p as, e.onPos f ≠ .call g p as := fun g p as => by
  cases e <;> first | (simp only [Expr.onPos]; intro h; cases h; done) | exact absurd rfl (h _ _ _)

theorem Cutter.place (κ : Cutter env env' fn) {p : Ast.Pos} {q : Pos} (h : PlaceOf env fn p q) :
    PlaceOf env' fn (κ.κ.m p) q ∨ κ.Out q := by
  obtain ⟨r, h1, rfl, rfl⟩ := h
  rcases κ.suf κ.start h1 with i | i
  · exact .inl ⟨κ.tr r, (κ.tr_suf κ.start.to h1 i.to).trans κ.buf, Carry.here i, κ.posOf i⟩
  · exact .inr ⟨r, i, rfl⟩

theorem Cutter.placeNode (κ : Cutter env env' fn) {e : Expr} {q : Pos} (h : PlaceOf env fn (nodePos e) q) :
    PlaceOf env' fn (nodePos (e.onPos κ.κ.m)) q ∨ κ.Out q := by
  rw [nodePos_onPos]; exact κ.place h

/-! ### Patterns and ranges -/

instance {d : Char} {n : Int} {p e : Str} : Fw κ (Pat d n r p e r') r r' (Pat d n (κ.tr r) p e (κ.tr r')) :=
  ⟨fun i h => Carry.pat h i⟩
instance {ts : List Str} : Fw κ (Offsets r ts r') r r' (Offsets (κ.tr r) ts (κ.tr r')) := ⟨fun i h => Carry.offsets h i⟩
instance {ts : List Str} : Fw κ (Address r ts r') r r' (Address (κ.tr r) ts (κ.tr r')) := ⟨Carry.address⟩
instance {ts : List Str} : Fw κ (Addresses r ts r') r r' (Addresses (κ.tr r) ts (κ.tr r')) := ⟨fun i h => Carry.addresses h i⟩
instance {ts : List Str} : Fw κ (WholeFile r ts r') r r' (WholeFile (κ.tr r) ts (κ.tr r')) := ⟨Carry.wholeFile⟩

theorem ctPatErr (κ : Cutter env env' fn) {d : Char} : ∀ {n r q}, PatErr env d n r q → κ.In r →
    PatErr env' d n (κ.tr r) q ∨ κ.Out q
  | _, _, _, .last h1 h2 h3, i => by
    obtain ⟨_, c1⟩ := fw κ (by assumption) h1
    have c3 := ft κ (by assumption) h3
    carried (.last c1 h2 c3)
  | _, _, _, .esc h1 h2 h3, i => by
    obtain ⟨_, c1⟩ := fw κ (by assumption) h1
    refine Or.elim (ctPatErr κ h3 (by assumption)) (fun c3 => ?_) Or.inr
    carried (.esc c1 h2 c3)
  | _, _, _, .char h1 h2 h3 h4, i => by
    obtain ⟨_, c1⟩ := fw κ (by assumption) h1
    refine Or.elim (ctPatErr κ h4 (by assumption)) (fun c4 => ?_) Or.inr
    carried (.char c1 h2 h3 c4)

instance {d : Char} {n r q} : Fe κ (PatErr env d n r q) r
    (PatErr env' d n (κ.tr r) q) q := ⟨fun i h => ctPatErr κ h i⟩

theorem ctAddressErr (κ : Cutter env env' fn) : ∀ {r m q}, AddressErr env r m q → κ.In r →
    AddressErr env' (κ.tr r) m q ∨ κ.Out q
  | _, _, _, .pat h1 h2 h3, i => by
    obtain ⟨_, c2⟩ := fw κ (by assumption) h2
    refine Or.elim (fe κ (by assumption) h3) (fun c3 => ?_) Or.inr
    carried (.pat h1 c2 c3)
  | _, _, _, .prev h1 h2 h3 h4, i => by
    obtain ⟨_, c1⟩ := fw κ (by assumption) h1
    have c2 := ft κ (by assumption) h2
    have c3 := ft κ (by assumption) h3
    have c4 := ft κ (by assumption) h4
    carried (.prev c1 c2 c3 c4)

instance {r m q} : Fe κ (AddressErr env r m q) r
    (AddressErr env' (κ.tr r) m q) q := ⟨fun i h => ctAddressErr κ h i⟩

theorem ctAddressesErr (κ : Cutter env env' fn) : ∀ {r m q}, AddressesErr env r m q → κ.In r →
    AddressesErr env' (κ.tr r) m q ∨ κ.Out q
  | _, _, _, .first h1 h2, i => by
    obtain ⟨_, c1⟩ := fw κ (by assumption) h1
    refine Or.elim (fe κ (by assumption) h2) (fun c2 => ?_) Or.inr
    carried (.first c1 c2)
  | _, _, _, .more h1 h2 h3 h4 h5 h6, i => by
    obtain ⟨_, c1⟩ := fw κ (by assumption) h1
    have c2 := ft κ (by assumption) h2
    obtain ⟨_, c3⟩ := fw κ (by assumption) h3
    obtain ⟨_, c4⟩ := fw κ (by assumption) h4
    have c5 := ft κ (by assumption) h5
    refine Or.elim (ctAddressesErr κ h6 (by assumption)) (fun c6 => ?_) Or.inr
    carried (.more c1 c2 c3 c4 c5 c6)

instance {r m q} : Fe κ (AddressesErr env r m q) r
    (AddressesErr env' (κ.tr r) m q) q := ⟨fun i h => ctAddressesErr κ h i⟩

theorem ctRangeErr (κ : Cutter env env' fn) : ∀ {r m q}, RangeErr env r m q → κ.In r →
    RangeErr env' (κ.tr r) m q ∨ κ.Out q
  | _, _, _, .first h1, i => by
    refine Or.elim (fe κ (by assumption) h1) (fun c1 => ?_) Or.inr
    carried (.first c1)
  | _, _, _, .more h1 h2 h3 h4 h5, i => by
    obtain ⟨_, c1⟩ := fw κ (by assumption) h1
    obtain ⟨_, c2⟩ := fw κ (by assumption) h2
    obtain ⟨_, c4⟩ := fw κ (by assumption) h4
    refine Or.elim (ctRangeErr κ h5 (by assumption)) (fun c5 => ?_) Or.inr
    carried (.more c1 c2 h3 c4 c5)

instance {r m q} : Fe κ (RangeErr env r m q) r
    (RangeErr env' (κ.tr r) m q) q := ⟨fun i h => ctRangeErr κ h i⟩

/-! ### The start of a command -/

instance {w : Str} : Fw κ (WordAt r w r') r r' (WordAt (κ.tr r) w (κ.tr r')) := ⟨Carry.wordAt⟩

theorem Carry.span_back {κ : Carry env env' fn} {g : Char → Bool} {v : Str} {t : List Cell} (i : κ.In r)
    (h : Span g (κ.tr r) v t) : ∃ r', Span g r v r' ∧ κ.In r' ∧ t = κ.tr r' := by
  obtain ⟨h1, h2, h3⟩ := h
  obtain ⟨r', h4, j, rfl⟩ := Carry.reads_back i h1
  exact ⟨r', ⟨h4, h2, by rw [← Carry.head j]; exact h3⟩, j, rfl⟩

theorem wordAt_cut (κ : Cutter env env' fn) {w : Str} {t : List Cell} (i : κ.In r) (h : WordAt (κ.tr r) w t) :
    ∃ r', WordAt r w r' := by
  obtain ⟨h1, h2⟩ := h
  obtain ⟨r', h3, j, rfl⟩ := Carry.reads_back i h1
  exact ⟨r', h3, by rw [← Carry.head j]; exact h2⟩

theorem argOpt_cut (κ : Cutter env env' fn) {ea ea' : Ast.ExArg} {t : List Cell} (i : κ.In r) (h : ArgOpt ea (κ.tr r) ea' t) :
    ∃ ea' r', ArgOpt ea r ea' r' := by
  cases h with
  | bin h => obtain ⟨r', h⟩ := wordAt_cut κ i h; exact ⟨_, r', .bin h⟩
  | nobin h => obtain ⟨r', h⟩ := wordAt_cut κ i h; exact ⟨_, r', .nobin h⟩
  | edit h => obtain ⟨r', h⟩ := wordAt_cut κ i h; exact ⟨_, r', .edit h⟩
  | ff h1 h2 h => obtain ⟨r', h⟩ := wordAt_cut κ i h; exact ⟨_, r', .ff h1 h2 h⟩
  | enc h1 h2 h3 h4 h5 =>
    obtain ⟨r1, h6, j, rfl⟩ := Carry.reads_back i h2
    obtain ⟨r2, h7, _, rfl⟩ := Carry.span_back j h5
    rw [Carry.atEnd j] at h3
    rw [Carry.head j] at h4
    exact ⟨_, r2, .enc h1 h6 h3 h4 h7⟩
  | bad h1 h => obtain ⟨r', h⟩ := wordAt_cut κ i h; exact ⟨_, r', .bad h1 h⟩
  | badChar h1 h2 =>
    obtain ⟨r', h3, j, rfl⟩ := Carry.reads_back i h1
    rw [Carry.head j] at h2
    exact ⟨_, r', .badChar h3 h2⟩

instance {ea ea' : Ast.ExArg} : Fw κ (ArgOpt ea r ea' r') r r' (ArgOpt (ea.onPos κ.κ.m) (κ.tr r) (ea'.onPos κ.κ.m) (κ.tr r')) :=
  ⟨Carry.argOpt⟩
instance {ea ea' : Ast.ExArg} : Fw κ (ArgOpts ea r ea' r') r r'
    (ArgOpts (ea.onPos κ.κ.m) (κ.tr r) (ea'.onPos κ.κ.m) (κ.tr r')) := ⟨fun i h => Carry.argOpts h i⟩
instance {c : Cmd} {ea ea' : Ast.ExArg} : Fw κ (Options c ea r ea' r') r r'
    (Options c (ea.onPos κ.κ.m) (κ.tr r) (ea'.onPos κ.κ.m) (κ.tr r')) := ⟨Carry.options⟩
instance {c : Cmd} {b : Bool} : Fw κ (Bang c r b r') r r' (Bang c (κ.tr r) b (κ.tr r')) := ⟨Carry.bang⟩
instance {ms : List Modifier} : Fw κ (Mods r ms r') r r' (Mods (κ.tr r) ms (κ.tr r')) := ⟨fun i h => Carry.mods h i⟩

theorem ctArgOptsErr (κ : Cutter env env' fn) : ∀ {r q}, ArgOptsErr env r q → κ.In r →
    ArgOptsErr env' (κ.tr r) q ∨ κ.Out q
  | _, _, .here h1 h2, i => by
    have c1 := ft κ i h1
    refine .inl ?_
    rw [← κ.posOf i]
    refine .here c1 fun ea ea' s h => ?_
    obtain ⟨x, r', h3⟩ := argOpt_cut κ i h
    exact h2 _ _ _ h3
  | _, _, .more h1 h2 h3, i => by
    obtain ⟨_, c1⟩ := fw κ (by assumption) h1
    obtain ⟨_, c2⟩ := fw κ (by assumption) h2
    refine Or.elim (ctArgOptsErr κ h3 (by assumption)) (fun c3 => ?_) Or.inr
    carried (.more c1 c2 c3)

instance {r q} : Fe κ (ArgOptsErr env r q) r
    (ArgOptsErr env' (κ.tr r) q) q := ⟨fun i h => ctArgOptsErr κ h i⟩

theorem cmdName_cut (κ : Cutter env env' fn) {nv : Bool} {used used' usedX : List Str} {c : Cmd} (hu : Names used usedX)
    (i : κ.In r) (h : CmdName nv used r c r' used') :
    κ.In r' ∧ ∃ usedX', Names used' usedX' ∧ CmdName nv usedX (κ.tr r) c (κ.tr r') usedX' := by
  obtain ⟨j, x, h1, h2⟩ := Carry.cmdName (κ := κ.κ) i hu.adds (fun _ h => by cases h) h
  exact ⟨j, x, names_of h1, h2⟩

theorem lineIs_cut (κ : Cutter env env' fn) {l : Str} (i : κ.In r) (h : LineIs (κ.tr r) l) : LineIs r l := by
  obtain ⟨e, h1, h2⟩ := h
  obtain ⟨e', h3, j, rfl⟩ := Carry.reads_back i h1
  exact ⟨e', h3, (Carry.atEnd j).1 h2⟩

theorem noName_cut (κ : Cutter env env' fn) {nv : Bool} {used usedX' usedX : List Str} {c : Cmd} {t : List Cell}
    (hu : Names used usedX) (i : κ.In r) (h : CmdName nv usedX (κ.tr r) c t usedX') :
    ∃ c r' used', CmdName nv used r c r' used' := by
  cases h with
  | table h1 h2 h3 h4 h5 =>
    obtain ⟨r', h6, _, rfl⟩ := Carry.reads_back i h5
    exact ⟨_, r', _, .table (lineIs_cut κ i h1) h2 h3 h4 h6⟩
  | user h1 h2 h3 h4 =>
    obtain ⟨r1, h5, j, rfl⟩ := Carry.span_back i h1
    obtain ⟨r2, h6, _, rfl⟩ := Carry.span_back j h4
    exact ⟨_, r2, _, .user h5 h2 (fun h => h3 ((hu _).2 h)) h6⟩
  | again h1 h2 h3 =>
    obtain ⟨r1, h5, _, rfl⟩ := Carry.span_back i h1
    exact ⟨_, r1, _, .again h5 h2 ((hu _).1 h3)⟩

theorem namedAt_cut (κ : Cutter env env' fn) {nv : Bool} {used used' usedX : List Str} {r0 : List Cell} {ms rg} {c : Cmd}
    (hu : Names used usedX) (i : κ.In r) (h : NamedAt nv used r r0 ms rg rc c r1 used') :
    κ.In r0 ∧ κ.In rc ∧ κ.In r1 ∧ ∃ usedX', Names used' usedX' ∧
      NamedAt nv usedX (κ.tr r) (κ.tr r0) ms rg (κ.tr rc) c (κ.tr r1) usedX' := by
  obtain ⟨h1, h2, h3, h4⟩ := h
  obtain ⟨i0, ic, c1⟩ := Carry.before i h1
  obtain ⟨i1, x, h5, h6⟩ := cmdName_cut κ hu ic h4
  exact ⟨i0, ic, i1, x, h5, c1, ft κ ic h2, ft κ ic h3, h6⟩

theorem argsAt_cut (κ : Cutter env env' fn) {nv : Bool} {used used' usedX : List Str} {r0 ra : List Cell} {ea} {c : Cmd}
    (hu : Names used usedX) (i : κ.In r) (h : ArgsAt nv env fn used r r0 rc ea c ra used') :
    κ.In r0 ∧ κ.In rc ∧ κ.In ra ∧ ∃ usedX', Names used' usedX' ∧
      ArgsAt nv env' fn usedX (κ.tr r) (κ.tr r0) (κ.tr rc) (ea.onPos κ.κ.m) c (κ.tr ra) usedX' := by
  obtain ⟨ms, rg, r1, b, r2, h1, h2, h3, rfl⟩ := h
  obtain ⟨i0, ic, i1, x, h5, h6⟩ := namedAt_cut κ hu i h1
  obtain ⟨i2, c2⟩ := fw κ i1 h2
  obtain ⟨i3, c3⟩ : κ.In ra ∧ (c.name = cs!"!" ∧ κ.tr ra = κ.tr r2 ∨ c.name ≠ cs!"!" ∧ Skip (κ.tr r2) (κ.tr ra)) := by
    rcases h3 with ⟨h3, rfl⟩ | ⟨h3, h4⟩
    · exact ⟨i2, .inl ⟨h3, rfl⟩⟩
    · exact ⟨(fw κ i2 h4).1, .inr ⟨h3, (fw κ i2 h4).2⟩⟩
  refine ⟨i0, ic, i3, x, h5, ms, rg, _, b, _, h6, c2, c3, ?_⟩
  simp only [Ast.ExArg.onPos, Option.map_some, Carry.here i0, Carry.here ic, Carry.here i3]

theorem headAt_cut (κ : Cutter env env' fn) {nv : Bool} {used used' usedX : List Str} {r0 ra : List Cell} {ea} {c : Cmd}
    (hu : Names used usedX) (i : κ.In r) (h : HeadAt nv env fn used r r0 rc ea c ra r' used') :
    κ.In r0 ∧ κ.In rc ∧ κ.In ra ∧ κ.In r' ∧ ∃ usedX', Names used' usedX' ∧
      HeadAt nv env' fn usedX (κ.tr r) (κ.tr r0) (κ.tr rc) (ea.onPos κ.κ.m) c (κ.tr ra) (κ.tr r') usedX' := by
  obtain ⟨ea0, h1, h2⟩ := h
  obtain ⟨i0, ic, ia, x, h5, h6⟩ := argsAt_cut κ hu i h1
  obtain ⟨i', c2⟩ := fw κ ia h2
  exact ⟨i0, ic, ia, i', x, h5, _, h6, c2⟩

theorem headErr_cut (κ : Cutter env env' fn) {nv : Bool} {used usedX : List Str} {m : Str} {q : Pos}
    (hu : Names used usedX) (i : κ.In r) (h : HeadErr nv env fn used r m q) :
    HeadErr nv env' fn usedX (κ.tr r) m q ∨ κ.Out q := by
  cases h with
  | range h1 h2 h3 h4 h5 h6 h7 =>
    have c1 := ft κ i h1
    obtain ⟨i0, c2⟩ := fw κ i h2
    have c3 := ft κ i0 h3
    have c4 := ft κ i0 h4
    obtain ⟨i1, c5⟩ := fw κ i0 h5
    refine Or.elim (fe κ i1 h7) (fun c7 => ?_) Or.inr
    exact .inl (.range c1 c2 c3 c4 c5 h6 c7)
  | name h1 h2 h3 h4 h5 =>
    obtain ⟨i0, ic, c1⟩ := Carry.before i h1
    have c2 := ft κ ic h2
    have c3 := ft κ ic h3
    obtain ⟨_, c5⟩ := fw κ ic h5
    refine .inl ?_
    rw [← κ.posOf ic]
    refine .name c1 c2 c3 (fun c s u h => ?_) c5
    obtain ⟨c', r', u', h6⟩ := noName_cut κ hu ic h
    exact h4 _ _ _ h6
  | bang h1 h2 h3 h4 h5 =>
    obtain ⟨i0, ic, i1, x, _, h6⟩ := namedAt_cut κ hu i h1
    refine .inl ?_
    rw [← κ.posOf ic]
    exact .bang h6 (fw κ i1 h2).2 h3 h4 h5
  | argOpt h1 h2 h3 =>
    obtain ⟨i0, ic, ia, x, _, h6⟩ := argsAt_cut κ hu i h1
    refine Or.elim (fe κ ia h3) (fun c3 => ?_) Or.inr
    exact .inl (.argOpt h6 h2 c3)
  | write h1 h2 h3 h4 h5 =>
    obtain ⟨i0, ic, ia, x, _, h6⟩ := argsAt_cut κ hu i h1
    refine .inl ?_
    rw [← κ.posOf ic]
    rcases h2 with ⟨h2, h7⟩ | ⟨h2, rfl⟩
    · obtain ⟨i1, c7⟩ := fw κ ia h7
      obtain ⟨i2, c4⟩ := fw κ i1 h4
      exact .write h6 (.inl ⟨h2, c7⟩) h3 c4 (ft κ i2 h5)
    · obtain ⟨i2, c4⟩ := fw κ ia h4
      exact .write (ea1 := {}) h6 (.inr ⟨h2, rfl⟩) h3 c4 (ft κ i2 h5)

/-! ### Text of raw commands -/

instance : Fw κ (GrepPat r r') r r' (GrepPat (κ.tr r) (κ.tr r')) := ⟨Carry.grepPat⟩
instance : Fw κ (WinArg r r') r r' (WinArg (κ.tr r) (κ.tr r')) := ⟨Carry.winArg⟩
instance : Fw κ (Drop r r') r r' (Drop (κ.tr r) (κ.tr r')) := ⟨Carry.drop_⟩

theorem nextChar_cut (κ : Cutter env env' fn) (i : κ.In r) : nextChar (κ.tr r) = nextChar r := by
  unfold nextChar; rw [Carry.head i]

theorem ctGrepErr (κ : Cutter env env' fn) : ∀ {r q}, GrepErr env r q → κ.In r →
    GrepErr env' (κ.tr r) q ∨ κ.Out q
  | _, _, .mk h1 h2 h3, i => by
    obtain ⟨_, c2⟩ := fw κ (by assumption) h2
    refine Or.elim (fe κ (by assumption) h3) (fun c3 => ?_) Or.inr
    carried (.mk h1 c2 c3)

instance {r q} : Fe κ (GrepErr env r q) r
    (GrepErr env' (κ.tr r) q) q := ⟨fun i h => ctGrepErr κ h i⟩

theorem ctRawRunErr (κ : Cutter env env' fn) {c : Cmd} {ra : List Cell} (ia : κ.In ra) : ∀ {pc r m q}, RawRunErr env fn c ra pc r m q → κ.In r →
    RawRunErr env' fn c (κ.tr ra) pc (κ.tr r) m q ∨ κ.Out q
  | _, _, _, _, .expr h1 h2 h3, i => by
    obtain ⟨_, c2⟩ := fw κ (by assumption) h2
    refine Or.elim (fe κ (by assumption) h3) (fun c3 => ?_) Or.inr
    carried (.expr h1 c2 c3)
  | _, _, _, _, .close h1 h2 h3 h4, i => by
    obtain ⟨j1, c2⟩ := fw κ i h2
    obtain ⟨j2, c3⟩ := fw κ j1 h3
    have c4 := ft κ j2 h4
    refine .inl ?_
    rw [← κ.posOf j2, ← nextChar_cut κ j2]
    exact .close h1 c2 c3 c4
  | _, _, _, _, .ctrlV h1 h2 h3, i => by
    obtain ⟨j, c1⟩ := fw κ i h1
    obtain ⟨j2, c2⟩ := fw κ j h2
    refine Or.elim (ctRawRunErr κ ia h3 j2) (fun c5 => ?_) Or.inr
    exact .inl (.ctrlV c1 c2 c5)
  | _, _, _, _, .more h1 h2 h3 h4 h5, i => by
    obtain ⟨j1, c2⟩ := fw κ i h2
    obtain ⟨j2, c3⟩ := fw κ j1 h3
    obtain ⟨j3, c4⟩ := fw κ j2 h4
    refine Or.elim (ctRawRunErr κ ia h5 j3) (fun c5 => ?_) Or.inr
    exact .inl (.more h1 c2 c3 c4 c5)
  | _, _, _, _, .char h1 h2 h3 h4 h5, i => by
    obtain ⟨j, c1⟩ := fw κ i h1
    refine Or.elim (ctRawRunErr κ ia h5 j) (fun c5 => ?_) Or.inr
    exact .inl (.char c1 h2 (fun h => h3 ⟨h.1, (Carry.starts i _).1 h.2⟩) (fun h => h4 ((Carry.endsRaw i ia).1 h)) c5)

theorem ctRawErr (κ : Cutter env env' fn) {c : Cmd} {ra : List Cell} (ia : κ.In ra) {f : Bool} : ∀ {r m q}, RawErr env fn c f ra r m q → κ.In r →
    RawErr env' fn c f (κ.tr ra) (κ.tr r) m q ∨ κ.Out q
  | _, _, _, .pat h1 h2 h3 h4, i => by
    refine Or.elim (fe κ (by assumption) h4) (fun c4 => ?_) Or.inr
    carried (.pat h1 h2 h3 c4)
  | _, _, _, .run h1 h2 h3 h4 h5, i => by
    by_cases hg : c.name ∈ grepCmds
    · obtain ⟨j, c3⟩ := fw κ i (h3 hg)
      refine Or.elim (ctRawRunErr κ ia h5 j) (fun c5 => ?_) Or.inr
      exact .inl (.run h1 h2 (fun _ => c3) (fun h => absurd hg h) c5)
    · cases h4 hg
      refine Or.elim (ctRawRunErr κ ia h5 i) (fun c5 => ?_) Or.inr
      exact .inl (.run h1 h2 (fun h => absurd h hg) (fun _ => rfl) c5)

theorem ctWinErr (κ : Cutter env env' fn) : ∀ {r m q}, WinErr env r m q → κ.In r →
    WinErr env' (κ.tr r) m q ∨ κ.Out q
  | _, _, _, .none h1, i => by
    have c1 := ft κ (by assumption) h1
    carried (.none c1)
  | _, _, _, .second h1 h2 h3, i => by
    obtain ⟨_, c1⟩ := fw κ (by assumption) h1
    have c3 := ft κ (by assumption) h3
    carried (.second c1 h2 c3)
  | _, _, _, .blank h1 h2 h3, i => by
    obtain ⟨_, c1⟩ := fw κ (by assumption) h1
    carried (.blank c1 h2 h3)
  | _, _, _, .trail h1 h2 h3, i => by
    obtain ⟨_, c1⟩ := fw κ (by assumption) h1
    obtain ⟨_, c2⟩ := fw κ (by assumption) h2
    have c3 := ft κ (by assumption) h3
    carried (.trail c1 c2 c3)

instance {r m q} : Fe κ (WinErr env r m q) r
    (WinErr env' (κ.tr r) m q) q := ⟨fun i h => ctWinErr κ h i⟩

theorem ctSynErr (κ : Cutter env env' fn) : ∀ {r q}, SynErr env r q → κ.In r →
    SynErr env' (κ.tr r) q ∨ κ.Out q
  | _, _, .pat h1 h2 h3, i => by
    obtain ⟨_, c2⟩ := fw κ (by assumption) h2
    refine Or.elim (fe κ (by assumption) h3) (fun c3 => ?_) Or.inr
    carried (.pat h1 c2 c3)
  | _, _, .patMore h1 h2 h3 h4 h5, i => by
    obtain ⟨_, c2⟩ := fw κ (by assumption) h2
    obtain ⟨_, c3⟩ := fw κ (by assumption) h3
    obtain ⟨_, c4⟩ := fw κ (by assumption) h4
    refine Or.elim (ctSynErr κ h5 (by assumption)) (fun c5 => ?_) Or.inr
    carried (.patMore h1 c2 c3 c4 c5)
  | _, _, .eq h1 h2, i => by
    obtain ⟨_, c1⟩ := fw κ (by assumption) h1
    refine Or.elim (fe κ (by assumption) h2) (fun c2 => ?_) Or.inr
    carried (.eq c1 c2)
  | _, _, .eqMore h1 h2 h3 h4, i => by
    obtain ⟨_, c1⟩ := fw κ (by assumption) h1
    obtain ⟨_, c2⟩ := fw κ (by assumption) h2
    obtain ⟨_, c3⟩ := fw κ (by assumption) h3
    refine Or.elim (ctSynErr κ h4 (by assumption)) (fun c4 => ?_) Or.inr
    carried (.eqMore c1 c2 c3 c4)
  | _, _, .char h1 h2 h3, i => by
    obtain ⟨_, c1⟩ := fw κ (by assumption) h1
    refine Or.elim (ctSynErr κ h3 (by assumption)) (fun c3 => ?_) Or.inr
    carried (.char c1 h2 c3)

instance {r q} : Fe κ (SynErr env r q) r
    (SynErr env' (κ.tr r) q) q := ⟨fun i h => ctSynErr κ h i⟩

theorem ctTrailErr (κ : Cutter env env' fn) : ∀ {r m q}, TrailErr env r m q → κ.In r →
    TrailErr env' (κ.tr r) m q ∨ κ.Out q
  | _, _, _, .mk h1 h2 h3 h4, i => by
    obtain ⟨_, c1⟩ := fw κ (by assumption) h1
    have c2 := ft κ (by assumption) h2
    carried (.mk c1 c2 h3 h4)

instance {r m q} : Fe κ (TrailErr env r m q) r
    (TrailErr env' (κ.tr r) m q) q := ⟨fun i h => ctTrailErr κ h i⟩

/-! ### Assignment targets -/

theorem lvOperand_cut (κ : Cutter env env' fn) {ty : TT} (i : ty ≠ .eol → κ.In r) (h : LvOperand ty (κ.tr r)) :
    LvOperand ty r := by
  rcases h with h | h | h | h | h | ⟨h, v, s, h1, h2⟩
  · exact .inl h
  · exact .inr (.inl h)
  · exact .inr (.inr (.inl h))
  · exact .inr (.inr (.inr (.inl h)))
  · exact .inr (.inr (.inr (.inr (.inl h))))
  · obtain ⟨r', h3, _⟩ := Carry.reads_back (i (by simp [h])) h1
    exact .inr (.inr (.inr (.inr (.inr ⟨h, v, r', h3, h2⟩))))

instance {e : Expr} : Fw κ (LvChain env fn r e r') r r' (LvChain env' fn (κ.tr r) (e.onPos κ.κ.m) (κ.tr r')) :=
  ⟨fun i h => Carry.lvChain h i⟩
instance {e : Expr} : Fw κ (Lv env fn r e r') r r' (Lv env' fn (κ.tr r) (e.onPos κ.κ.m) (κ.tr r')) := ⟨Carry.lv⟩
instance {e : Expr} : Fw κ (Target env fn r e r') r r' (Target env' fn (κ.tr r) (e.onPos κ.κ.m) (κ.tr r')) := ⟨Carry.target_⟩
instance {e : Expr} : Fw κ (FuncName env fn r e r') r r' (FuncName env' fn (κ.tr r) (e.onPos κ.κ.m) (κ.tr r')) :=
  ⟨Carry.funcName⟩

theorem ctLvErr (κ : Cutter env env' fn) : ∀ {r m q}, LvErr env fn r m q → κ.In r →
    LvErr env' fn (κ.tr r) m q ∨ κ.Out q
  | _, _, _, .lex h1, i => by
    refine Or.elim (fe κ (by assumption) h1) (fun c1 => ?_) Or.inr
    carried (.lex c1)
  | _, _, _, .token h1 h2, i => by
    obtain ⟨c1, j⟩ := κ.lexFw i h1
    carried (.token c1 fun h => h2 (lvOperand_cut κ j h))
  | _, _, _, .name h1 h2 h3, i => by
    have c1 := ft κ (by assumption) h1
    obtain ⟨_, c2⟩ := fw κ (by assumption) h2
    refine Or.elim (fe κ (by assumption) h3) (fun c3 => ?_) Or.inr
    carried (.name c1 c2 c3)
  | _, _, _, .sid h1 h2 h3 h4, i => by
    obtain ⟨_, c1⟩ := fw κ (by assumption) h1
    obtain ⟨_, c2⟩ := fw κ (by assumption) h2
    refine Or.elim (fe κ (by assumption) h4) (fun c4 => ?_) Or.inr
    carried (.sid c1 c2 h3 c4)
  | _, _, _, .after h1 h2, i => by
    obtain ⟨_, c1⟩ := fw κ (by assumption) h1
    refine Or.elim (fe κ (by assumption) h2) (fun c2 => ?_) Or.inr
    carried (.after c1 c2)
  | _, _, _, .subscript h1 h2 h3 h4, i => by
    obtain ⟨_, c1⟩ := fw κ (by assumption) h1
    have c2 := ft κ (by assumption) h2
    obtain ⟨_, c3⟩ := Carry.mark (κ := κ.κ) (by assumption) h3
    refine Or.elim (fe κ (by assumption) h4) (fun c4 => ?_) Or.inr
    carried (.subscript c1 c2 c3 c4)

instance {r m q} : Fe κ (LvErr env fn r m q) r
    (LvErr env' fn (κ.tr r) m q) q := ⟨fun i h => ctLvErr κ h i⟩

theorem ctTargetErr (κ : Cutter env env' fn) : ∀ {r m q}, TargetErr env fn r m q → κ.In r →
    TargetErr env' fn (κ.tr r) m q ∨ κ.Out q
  | _, _, _, .lv h1, i => by
    refine Or.elim (fe κ (by assumption) h1) (fun c1 => ?_) Or.inr
    carried (.lv c1)
  | _, _, _, .name h1 h2 h3, i => by
    obtain ⟨_, c1⟩ := fw κ i h1
    refine Or.elim (κ.place h3) (fun c3 => ?_) Or.inr
    exact .inl (.name (i := Ident.onPos κ.κ.m _) c1 h2 c3)

instance {r m q} : Fe κ (TargetErr env fn r m q) r
    (TargetErr env' fn (κ.tr r) m q) q := ⟨fun i h => ctTargetErr κ h i⟩

theorem ctConstErr (κ : Cutter env env' fn) : ∀ {r m q}, ConstErr env fn r m q → κ.In r →
    ConstErr env' fn (κ.tr r) m q ∨ κ.Out q
  | _, _, _, .target h1, i => by
    refine Or.elim (fe κ (by assumption) h1) (fun c1 => ?_) Or.inr
    carried (.target c1)
  | _, _, _, .kind h1 h2 h3, i => by
    obtain ⟨_, c1⟩ := fw κ (by assumption) h1
    refine Or.elim (κ.placeNode h3) (fun c3 => ?_) Or.inr
    carried (.kind c1 (onPos_unlockable h2) c3)

instance {r m q} : Fe κ (ConstErr env fn r m q) r
    (ConstErr env' fn (κ.tr r) m q) q := ⟨fun i h => ctConstErr κ h i⟩

theorem ctFuncNameErr (κ : Cutter env env' fn) : ∀ {r m q}, FuncNameErr env fn r m q → κ.In r →
    FuncNameErr env' fn (κ.tr r) m q ∨ κ.Out q
  | _, _, _, .lv h1, i => by
    refine Or.elim (fe κ (by assumption) h1) (fun c1 => ?_) Or.inr
    carried (.lv c1)
  | _, _, _, .kind h1 h2 h3, i => by
    obtain ⟨_, c1⟩ := fw κ (by assumption) h1
    refine Or.elim (κ.placeNode h3) (fun c3 => ?_) Or.inr
    carried (.kind c1 (fun h => h2 ((onPos_funcTarget _).1 h)) c3)

instance {r m q} : Fe κ (FuncNameErr env fn r m q) r
    (FuncNameErr env' fn (κ.tr r) m q) q := ⟨fun i h => ctFuncNameErr κ h i⟩

theorem ctListWant (κ : Cutter env env' fn) : ∀ {p r m q}, ListWant env p r m q → κ.In r →
    ListWant env' p (κ.tr r) m q ∨ κ.Out q
  | _, _, _, _, .lex h1, i => by
    refine Or.elim (fe κ (by assumption) h1) (fun c1 => ?_) Or.inr
    carried (.lex c1)
  | _, _, _, _, .token h1 h2, i => by
    obtain ⟨c1, j1⟩ := κ.lexFw (by assumption) h1
    try (refine (fun j1 => ?_) (j1 ?_); rotate_left; (· no_eol))
    carried (.token c1 h2)

instance {p r m q} : Fe κ (ListWant env p r m q) r
    (ListWant env' p (κ.tr r) m q) q := ⟨fun i h => ctListWant κ h i⟩

theorem ctTargetListErr (κ : Cutter env env' fn) : ∀ {r m q}, TargetListErr env fn r m q → κ.In r →
    TargetListErr env' fn (κ.tr r) m q ∨ κ.Out q
  | _, _, _, .target h1, i => by
    refine Or.elim (fe κ (by assumption) h1) (fun c1 => ?_) Or.inr
    carried (.target c1)
  | _, _, _, .sep h1 h2, i => by
    obtain ⟨_, c1⟩ := fw κ (by assumption) h1
    refine Or.elim (fe κ (by assumption) h2) (fun c2 => ?_) Or.inr
    carried (.sep c1 c2)
  | _, _, _, .more h1 h2 h3, i => by
    obtain ⟨_, c1⟩ := fw κ (by assumption) h1
    obtain ⟨_, c2⟩ := Carry.mark (κ := κ.κ) (by assumption) h2
    refine Or.elim (ctTargetListErr κ h3 (by assumption)) (fun c3 => ?_) Or.inr
    carried (.more c1 c2 c3)
  | _, _, _, .rest h1 h2 h3, i => by
    obtain ⟨_, c1⟩ := fw κ (by assumption) h1
    obtain ⟨_, c2⟩ := Carry.mark (κ := κ.κ) (by assumption) h2
    refine Or.elim (fe κ (by assumption) h3) (fun c3 => ?_) Or.inr
    carried (.rest c1 c2 c3)
  | _, _, _, .close h1 h2 h3 h4, i => by
    obtain ⟨_, c1⟩ := fw κ (by assumption) h1
    obtain ⟨_, c2⟩ := Carry.mark (κ := κ.κ) (by assumption) h2
    obtain ⟨_, c3⟩ := fw κ (by assumption) h3
    refine Or.elim (fe κ (by assumption) h4) (fun c4 => ?_) Or.inr
    carried (.close c1 c2 c3 c4)

instance {r m q} : Fe κ (TargetListErr env fn r m q) r
    (TargetListErr env' fn (κ.tr r) m q) q := ⟨fun i h => ctTargetListErr κ h i⟩

theorem lhsErr_cut (κ : Cutter env env' fn) {S S' : List Cell → Str → Pos → Prop}
    (hS : ∀ {r m q}, κ.In r → S r m q → S' (κ.tr r) m q ∨ κ.Out q) {m : Str} {q : Pos} (i : κ.In r)
    (h : LhsErr env fn S r m q) : LhsErr env' fn S' (κ.tr r) m q ∨ κ.Out q := by
  cases h with
  | lex h => exact .inl (.lex (ctLexErr κ h i))
  | one h1 h2 => exact Or.elim (hS i h2) (fun c => .inl (.one (ft κ i h1) c)) .inr
  | list h1 h2 =>
    obtain ⟨j, c1⟩ := Carry.mark (κ := κ.κ) i h1
    exact Or.elim (fe κ j h2) (fun c => .inl (.list c1 c)) .inr

instance {m : Str} {q : Pos} : Fe κ (LhsErr env fn (TargetErr env fn) r m q) r
    (LhsErr env' fn (TargetErr env' fn) (κ.tr r) m q) q := ⟨lhsErr_cut κ (fe κ)⟩
instance {m : Str} {q : Pos} : Fe κ (LhsErr env fn (ConstErr env fn) r m q) r
    (LhsErr env' fn (ConstErr env' fn) (κ.tr r) m q) q := ⟨lhsErr_cut κ (fe κ)⟩

theorem ctTargetsErr (κ : Cutter env env' fn) : ∀ {r m q}, TargetsErr env fn r m q → κ.In r →
    TargetsErr env' fn (κ.tr r) m q ∨ κ.Out q
  | _, _, _, .first h1 h2 h3, i => by
    obtain ⟨_, c1⟩ := fw κ (by assumption) h1
    have c2 := ft κ (by assumption) h2
    refine Or.elim (fe κ (by assumption) h3) (fun c3 => ?_) Or.inr
    carried (.first c1 c2 c3)
  | _, _, _, .more h1 h2 h3 h4, i => by
    obtain ⟨_, c1⟩ := fw κ (by assumption) h1
    have c2 := ft κ (by assumption) h2
    obtain ⟨_, c3⟩ := fw κ (by assumption) h3
    refine Or.elim (ctTargetsErr κ h4 (by assumption)) (fun c4 => ?_) Or.inr
    carried (.more c1 c2 c3 c4)

instance {r m q} : Fe κ (TargetsErr env fn r m q) r
    (TargetsErr env' fn (κ.tr r) m q) q := ⟨fun i h => ctTargetsErr κ h i⟩

theorem ctLockErr (κ : Cutter env env' fn) : ∀ {r m q}, LockErr env fn r m q → κ.In r →
    LockErr env' fn (κ.tr r) m q ∨ κ.Out q
  | _, _, _, .first h1, i => by
    refine Or.elim (fe κ (by assumption) h1) (fun c1 => ?_) Or.inr
    carried (.first c1)
  | _, _, _, .more h1 h2, i => by
    obtain ⟨_, c1⟩ := fw κ (by assumption) h1
    refine Or.elim (fe κ (by assumption) h2) (fun c2 => ?_) Or.inr
    carried (.more c1 c2)

instance {r m q} : Fe κ (LockErr env fn r m q) r
    (LockErr env' fn (κ.tr r) m q) q := ⟨fun i h => ctLockErr κ h i⟩

theorem ctExprsErr (κ : Cutter env env' fn) : ∀ {r m q}, ExprsErr env fn r m q → κ.In r →
    ExprsErr env' fn (κ.tr r) m q ∨ κ.Out q
  | _, _, _, .first h1 h2 h3, i => by
    obtain ⟨_, c1⟩ := fw κ (by assumption) h1
    have c2 := ft κ (by assumption) h2
    refine Or.elim (fe κ (by assumption) h3) (fun c3 => ?_) Or.inr
    carried (.first c1 c2 c3)
  | _, _, _, .more h1 h2 h3 h4, i => by
    obtain ⟨_, c1⟩ := fw κ (by assumption) h1
    have c2 := ft κ (by assumption) h2
    obtain ⟨_, c3⟩ := fw κ (by assumption) h3
    refine Or.elim (ctExprsErr κ h4 (by assumption)) (fun c4 => ?_) Or.inr
    carried (.more c1 c2 c3 c4)

instance {r m q} : Fe κ (ExprsErr env fn r m q) r
    (ExprsErr env' fn (κ.tr r) m q) q := ⟨fun i h => ctExprsErr κ h i⟩

/-! ### Functions -/

instance {used : List Str} {d : Bool} {p : Ident} {ds : List Expr} : Fw κ (Param env fn used d r p ds r') r r'
    (Param env' fn used d (κ.tr r) (p.onPos κ.κ.m) (Expr.onPosL κ.κ.m ds) (κ.tr r')) := ⟨Carry.param⟩
instance {is : List Ident} {ds : List Expr} : Fw κ (FuncParamsAt env fn r is ds r') r r'
    (FuncParamsAt env' fn (κ.tr r) (is.map (Ident.onPos κ.κ.m)) (Expr.onPosL κ.κ.m ds) (κ.tr r')) := ⟨Carry.funcParams⟩

theorem ctParamListErr (κ : Cutter env env' fn) : ∀ {used d r m q}, ParamListErr env fn used d r m q → κ.In r →
    ParamListErr env' fn used d (κ.tr r) m q ∨ κ.Out q
  | _, _, _, _, _, .token h1, i => by
    refine Or.elim (fe κ (by assumption) h1) (fun c1 => ?_) Or.inr
    carried (.token c1)
  | _, _, _, _, _, .illegal h1 h2 h3, i => by
    obtain ⟨c1, j1⟩ := κ.lexFw (by assumption) h1
    try (refine (fun j1 => ?_) (j1 ?_); rotate_left; (· no_eol))
    carried (.illegal c1 h2 h3)
  | _, _, _, _, _, .twice h1 h2 h3 h4 h5 h6, i => by
    obtain ⟨c1, j1⟩ := κ.lexFw (by assumption) h1
    try (refine (fun j1 => ?_) (j1 ?_); rotate_left; (· no_eol))
    carried (.twice c1 h2 h3 h4 h5 h6)
  | _, _, _, _, _, .after h1 h2 h3, i => by
    have e0 := h2.1
    obtain ⟨c1, j1⟩ := κ.lexFw (by assumption) h1
    try (refine (fun j1 => ?_) (j1 ?_); rotate_left; (· no_eol))
    refine Or.elim (fe κ (by assumption) h3) (fun c3 => ?_) Or.inr
    carried (.after c1 h2 c3)
  | _, _, _, _, _, .default h1 h2 h3 h4, i => by
    have e0 := h2.1
    obtain ⟨c1, j1⟩ := κ.lexFw (by assumption) h1
    try (refine (fun j1 => ?_) (j1 ?_); rotate_left; (· no_eol))
    obtain ⟨_, c3⟩ := Carry.mark (κ := κ.κ) (by assumption) h3
    refine Or.elim (fe κ (by assumption) h4) (fun c4 => ?_) Or.inr
    carried (.default c1 h2 c3 c4)
  | _, _, _, _, _, .noDefault h1 h2 h3, i => by
    have e0 := h2.1
    obtain ⟨c1, j1⟩ := κ.lexFw (by assumption) h1
    try (refine (fun j1 => ?_) (j1 ?_); rotate_left; (· no_eol))
    have c3 := ft κ (by assumption) h3
    carried (.noDefault c1 h2 c3)
  | _, _, _, _, _, .white h1 h2 h3, i => by
    obtain ⟨_, c1⟩ := fw κ (by assumption) h1
    have c2 := ft κ (by assumption) h2
    have c3 := ft κ (by assumption) h3
    carried (.white c1 c2 c3)
  | _, _, _, _, _, .sep h1 h2, i => by
    obtain ⟨_, c1⟩ := fw κ (by assumption) h1
    refine Or.elim (fe κ (by assumption) h2) (fun c2 => ?_) Or.inr
    carried (.sep c1 c2)
  | _, _, _, _, _, .comma h1 h2 h3 h4, i => by
    obtain ⟨_, c1⟩ := fw κ (by assumption) h1
    have c2 := ft κ (by assumption) h2
    obtain ⟨_, c3⟩ := Carry.mark (κ := κ.κ) (by assumption) h3
    refine Or.elim (fe κ (by assumption) h4) (fun c4 => ?_) Or.inr
    carried (.comma c1 c2 c3 c4)
  | _, _, _, _, _, .more h1 h2 h3 h4 h5, i => by
    obtain ⟨j1, c1⟩ := fw κ i h1
    have c2 := ft κ j1 h2
    obtain ⟨j3, c3⟩ := Carry.mark (κ := κ.κ) j1 h3
    have c4 := ft κ j3 h4
    refine Or.elim (ctParamListErr κ h5 j3) (fun c5 => .inl (.more c1 c2 c3 c4 ?_)) Or.inr
    rw [Carry.isEmpty_onPos]
    exact c5
  | _, _, _, _, _, .dots h1 h2, i => by
    obtain ⟨_, c1⟩ := Carry.mark (κ := κ.κ) (by assumption) h1
    refine Or.elim (fe κ (by assumption) h2) (fun c2 => ?_) Or.inr
    carried (.dots c1 c2)

instance {used d r m q} : Fe κ (ParamListErr env fn used d r m q) r
    (ParamListErr env' fn used d (κ.tr r) m q) q := ⟨fun i h => ctParamListErr κ h i⟩

theorem ctParamsErr (κ : Cutter env env' fn) : ∀ {r m q}, ParamsErr env fn r m q → κ.In r →
    ParamsErr env' fn (κ.tr r) m q ∨ κ.Out q
  | _, _, _, .lex h1, i => by
    refine Or.elim (fe κ (by assumption) h1) (fun c1 => ?_) Or.inr
    carried (.lex c1)
  | _, _, _, .list h1 h2, i => by
    have c1 := ft κ (by assumption) h1
    refine Or.elim (fe κ (by assumption) h2) (fun c2 => ?_) Or.inr
    carried (.list c1 c2)

instance {r m q} : Fe κ (ParamsErr env fn r m q) r
    (ParamsErr env' fn (κ.tr r) m q) q := ⟨fun i h => ctParamsErr κ h i⟩

theorem ctAttrErr (κ : Cutter env env' fn) : ∀ {r m q}, AttrErr env r m q → κ.In r →
    AttrErr env' (κ.tr r) m q ∨ κ.Out q
  | _, _, _, .word h1 h2 h3 h4, i => by
    obtain ⟨_, c1⟩ := fw κ (by assumption) h1
    obtain ⟨_, c2⟩ := fw κ (by assumption) h2
    carried (.word c1 c2 h3 h4)
  | _, _, _, .more h1 h2 h3 h4, i => by
    obtain ⟨_, c1⟩ := fw κ (by assumption) h1
    obtain ⟨_, c2⟩ := fw κ (by assumption) h2
    refine Or.elim (ctAttrErr κ h4 (by assumption)) (fun c4 => ?_) Or.inr
    carried (.more c1 c2 h3 c4)

instance {r m q} : Fe κ (AttrErr env r m q) r
    (AttrErr env' (κ.tr r) m q) q := ⟨fun i h => ctAttrErr κ h i⟩

theorem ctFuncErr (κ : Cutter env env' fn) : ∀ {r m q}, FuncErr env fn r m q → κ.In r →
    FuncErr env' fn (κ.tr r) m q ∨ κ.Out q
  | _, _, _, .name h1 h2 h3 h4, i => by
    obtain ⟨_, c1⟩ := fw κ (by assumption) h1
    have c2 := ft κ (by assumption) h2
    have c3 := ft κ (by assumption) h3
    refine Or.elim (fe κ (by assumption) h4) (fun c4 => ?_) Or.inr
    carried (.name c1 c2 c3 c4)
  | _, _, _, .illegal h1 h2 h3 h4 h5 h6, i => by
    obtain ⟨j1, c1⟩ := fw κ i h1
    have c2 := ft κ j1 h2
    have c3 := ft κ j1 h3
    obtain ⟨_, c4⟩ := fw κ j1 h4
    refine Or.elim (κ.place h6) (fun c6 => ?_) Or.inr
    exact .inl (.illegal (i := Ident.onPos κ.κ.m _) c1 c2 c3 c4
      (fun h => h5 fun j e => by cases e; exact h (Ident.onPos κ.κ.m _) rfl) c6)
  | _, _, _, .params h1 h2 h3 h4 h5 h6 h7 h8, i => by
    obtain ⟨_, c1⟩ := fw κ (by assumption) h1
    have c2 := ft κ (by assumption) h2
    have c3 := ft κ (by assumption) h3
    obtain ⟨_, c4⟩ := fw κ (by assumption) h4
    obtain ⟨_, c6⟩ := fw κ (by assumption) h6
    obtain ⟨_, c7⟩ := fw κ (by assumption) h7
    refine Or.elim (fe κ (by assumption) h8) (fun c8 => ?_) Or.inr
    carried (.params c1 c2 c3 c4 (onPos_funcNameOK _ h5) c6 c7 c8)
  | _, _, _, .attr h1 h2 h3 h4 h5 h6 h7 h8 h9, i => by
    obtain ⟨_, c1⟩ := fw κ (by assumption) h1
    have c2 := ft κ (by assumption) h2
    have c3 := ft κ (by assumption) h3
    obtain ⟨_, c4⟩ := fw κ (by assumption) h4
    obtain ⟨_, c6⟩ := fw κ (by assumption) h6
    obtain ⟨_, c7⟩ := fw κ (by assumption) h7
    obtain ⟨_, c8⟩ := fw κ (by assumption) h8
    refine Or.elim (fe κ (by assumption) h9) (fun c9 => ?_) Or.inr
    carried (.attr c1 c2 c3 c4 (onPos_funcNameOK _ h5) c6 c7 c8 c9)

instance {r m q} : Fe κ (FuncErr env fn r m q) r
    (FuncErr env' fn (κ.tr r) m q) q := ⟨fun i h => ctFuncErr κ h i⟩

/-! ### :let -/

instance {fs : List (Pos × Str)} {k : Str} : Fw κ (HereHead env r fs k r') r r' (∃ fs', HereHead env' (κ.tr r) fs' k (κ.tr r')) :=
  ⟨fun i h => have ⟨j, fs', h1, _⟩ := Carry.hereHead h i; ⟨j, fs', h1⟩⟩
instance {n : Nat} : Fw κ (Depth r n r') r r' (Depth (κ.tr r) n (κ.tr r')) := ⟨Carry.depth⟩

theorem noMarker_cut (κ : Cutter env env' fn) (h : NoMarker r r') (i : κ.In r) : κ.In r' ∧ NoMarker (κ.tr r) (κ.tr r') := by
  induction h with
  | none h1 h2 =>
    obtain ⟨j, c1⟩ := fw κ i h1
    exact ⟨j, .none c1 (ft κ j h2)⟩
  | flag h1 h2 h3 _ ih =>
    obtain ⟨j, c1⟩ := fw κ i h1
    obtain ⟨j2, c2⟩ := fw κ j h2
    obtain ⟨j3, c3⟩ := ih j2
    exact ⟨j3, .flag c1 c2 h3 c3⟩

instance : Fw κ (NoMarker r r') r r' (NoMarker (κ.tr r) (κ.tr r')) := ⟨fun i h => noMarker_cut κ h i⟩

theorem ctHereErr (κ : Cutter env env' fn) : ∀ {r m q}, HereErr env fn r m q → κ.In r →
    HereErr env' fn (κ.tr r) m q ∨ κ.Out q
  | _, _, _, .marker h1, i => by
    obtain ⟨_, c1⟩ := fw κ (by assumption) h1
    carried (.marker c1)
  | _, _, _, .trail h1 h2, i => by
    obtain ⟨j, fs', h3⟩ := fw κ i h1
    refine Or.elim (fe κ j h2) (fun c2 => ?_) Or.inr
    exact .inl (.trail h3 c2)
  | _, _, _, .body h1 h2 h3, i => by
    exact .inr ⟨[], List.nil_suffix, rfl⟩

instance {r m q} : Fe κ (HereErr env fn r m q) r
    (HereErr env' fn (κ.tr r) m q) q := ⟨fun i h => ctHereErr κ h i⟩

/-! ### Arguments of commands -/

theorem kindsTarget_cut (κ : Cutter env env' fn) : Carry.Kinds κ.κ (Target env fn) (Target env' fn) :=
  fun i h => Carry.target_ i h
theorem kindsConst_cut (κ : Cutter env env' fn) : Carry.Kinds κ.κ (ConstTarget env fn) (ConstTarget env' fn) :=
  fun i h => Carry.constTarget i h

instance : Ft κ (FuncListing env fn r) r (FuncListing env' fn (κ.tr r)) := ⟨Carry.funcListing⟩
instance {ops : List Str} : Ft κ (LetListing env fn (Target env fn) ops r) r
    (LetListing env' fn (Target env' fn) ops (κ.tr r)) := ⟨Carry.letListing (kindsTarget_cut κ)⟩
instance {ops : List Str} : Ft κ (LetListing env fn (ConstTarget env fn) ops r) r
    (LetListing env' fn (ConstTarget env' fn) ops (κ.tr r)) := ⟨Carry.letListing (kindsConst_cut κ)⟩
instance {l ls x} : Fw κ (LetLeft env fn (Target env fn) r l ls x r') r r' (LetLeft env' fn (Target env' fn) (κ.tr r)
    (Expr.onPosO κ.κ.m l) (Expr.onPosL κ.κ.m ls) (Expr.onPosO κ.κ.m x) (κ.tr r')) :=
  ⟨Carry.letLeft (kindsTarget_cut κ)⟩
instance {l ls x} : Fw κ (LetLeft env fn (ConstTarget env fn) r l ls x r') r r' (LetLeft env' fn (ConstTarget env' fn) (κ.tr r)
    (Expr.onPosO κ.κ.m l) (Expr.onPosL κ.κ.m ls) (Expr.onPosO κ.κ.m x) (κ.tr r')) :=
  ⟨Carry.letLeft (kindsConst_cut κ)⟩
instance {l ls x} : Fw κ (LhsAt env fn (Target env fn) r l ls x r') r r' (LhsAt env' fn (Target env' fn) (κ.tr r)
    (Expr.onPosO κ.κ.m l) (Expr.onPosL κ.κ.m ls) (Expr.onPosO κ.κ.m x) (κ.tr r')) :=
  ⟨Carry.lhsAt (kindsTarget_cut κ)⟩

theorem ctArgErr (κ : Cutter env env' fn) {ra : List Cell} (ia : κ.In ra) : ∀ {c f r m q}, ArgErr env fn c f ra r m q → κ.In r →
    ArgErr env' fn c f (κ.tr ra) (κ.tr r) m q ∨ κ.Out q
  | _, _, _, _, _, .raw h1 h2, i => by
    refine Or.elim (ctRawErr κ ia h2 i) (fun c2 => ?_) Or.inr
    carried (.raw h1 c2)
  | _, _, _, _, _, .wincmd h1 h2, i => by
    refine Or.elim (fe κ (by assumption) h2) (fun c2 => ?_) Or.inr
    carried (.wincmd h1 c2)
  | _, _, _, _, _, .syntax h1 h2, i => by
    refine Or.elim (fe κ (by assumption) h2) (fun c2 => ?_) Or.inr
    carried (.syntax h1 c2)
  | _, _, _, _, _, .function h1 h2, i => by
    refine Or.elim (fe κ (by assumption) h2) (fun c2 => ?_) Or.inr
    carried (.function h1 c2)
  | _, _, _, _, _, .funcListing h1 h2 h3, i => by
    have c2 := ft κ (by assumption) h2
    refine Or.elim (ctRawErr κ ia h3 i) (fun c3 => ?_) Or.inr
    carried (.funcListing h1 c2 c3)
  | _, _, _, _, _, .delfunction h1 h2, i => by
    refine Or.elim (fe κ (by assumption) h2) (fun c2 => ?_) Or.inr
    carried (.delfunction h1 c2)
  | _, _, _, _, _, .return_ h1 h2 h3 h4, i => by
    obtain ⟨_, c2⟩ := fw κ (by assumption) h2
    have c3 := ft κ (by assumption) h3
    refine Or.elim (fe κ (by assumption) h4) (fun c4 => ?_) Or.inr
    carried (.return_ h1 c2 c3 c4)
  | _, _, _, _, _, .callNone h1 h2 h3, i => by
    obtain ⟨_, c2⟩ := fw κ (by assumption) h2
    have c3 := ft κ (by assumption) h3
    carried (.callNone h1 c2 c3)
  | _, _, _, _, _, .call h1 h2 h3 h4, i => by
    obtain ⟨_, c2⟩ := fw κ (by assumption) h2
    have c3 := ft κ (by assumption) h3
    refine Or.elim (fe κ (by assumption) h4) (fun c4 => ?_) Or.inr
    carried (.call h1 c2 c3 c4)
  | _, _, _, _, _, .noCall h1 h2 h3 h4 h5 h6, i => by
    obtain ⟨_, c2⟩ := fw κ (by assumption) h2
    have c3 := ft κ (by assumption) h3
    obtain ⟨_, c4⟩ := fw κ (by assumption) h4
    refine Or.elim (κ.placeNode h6) (fun c6 => ?_) Or.inr
    carried (.noCall h1 c2 c3 c4 (onPos_noCall h5) c6)
  | _, _, _, _, _, .letLeft h1 h2 h3 h4, i => by
    obtain ⟨_, c2⟩ := fw κ (by assumption) h2
    have c3 := ft κ (by assumption) h3
    refine Or.elim (fe κ (by assumption) h4) (fun c4 => ?_) Or.inr
    carried (.letLeft h1 c2 c3 c4)
  | _, _, _, _, _, .letListing h1 h2 h3, i => by
    have c2 := ft κ (by assumption) h2
    refine Or.elim (ctRawErr κ ia h3 i) (fun c3 => ?_) Or.inr
    carried (.letListing h1 c2 c3)
  | _, _, _, _, _, .let_ h1 h2 h3 h4 h5 h6, i => by
    obtain ⟨_, c2⟩ := fw κ (by assumption) h2
    have c4 := ft κ (by assumption) h4
    obtain ⟨_, c5⟩ := fw κ (by assumption) h5
    refine Or.elim (fe κ (by assumption) h6) (fun c6 => ?_) Or.inr
    carried (.let_ h1 c2 h3 c4 c5 c6)
  | _, _, _, _, _, .heredoc h1 h2 h3 h4, i => by
    obtain ⟨_, c2⟩ := fw κ (by assumption) h2
    obtain ⟨_, c3⟩ := fw κ (by assumption) h3
    refine Or.elim (fe κ (by assumption) h4) (fun c4 => ?_) Or.inr
    carried (.heredoc h1 c2 c3 c4)
  | _, _, _, _, _, .constLeft h1 h2 h3 h4, i => by
    obtain ⟨_, c2⟩ := fw κ (by assumption) h2
    have c3 := ft κ (by assumption) h3
    refine Or.elim (fe κ (by assumption) h4) (fun c4 => ?_) Or.inr
    carried (.constLeft h1 c2 c3 c4)
  | _, _, _, _, _, .constListing h1 h2 h3, i => by
    have c2 := ft κ (by assumption) h2
    refine Or.elim (ctRawErr κ ia h3 i) (fun c3 => ?_) Or.inr
    carried (.constListing h1 c2 c3)
  | _, _, _, _, _, .const_ h1 h2 h3 h4, i => by
    obtain ⟨_, c2⟩ := fw κ (by assumption) h2
    obtain ⟨_, c3⟩ := fw κ (by assumption) h3
    refine Or.elim (fe κ (by assumption) h4) (fun c4 => ?_) Or.inr
    carried (.const_ h1 c2 c3 c4)
  | _, _, _, _, _, .unlet h1 h2, i => by
    refine Or.elim (fe κ (by assumption) h2) (fun c2 => ?_) Or.inr
    carried (.unlet h1 c2)
  | _, _, _, _, _, .lock h1 h2 h3, i => by
    obtain ⟨_, c2⟩ := fw κ (by assumption) h2
    refine Or.elim (fe κ (by assumption) h3) (fun c3 => ?_) Or.inr
    carried (.lock h1 c2 c3)
  | _, _, _, _, _, .expr h1 h2, i => by
    refine Or.elim (fe κ (by assumption) h2) (fun c2 => ?_) Or.inr
    carried (.expr h1 c2)
  | _, _, _, _, _, .exprs h1 h2, i => by
    refine Or.elim (fe κ (by assumption) h2) (fun c2 => ?_) Or.inr
    carried (.exprs h1 c2)
  | _, _, _, _, _, .forLeft h1 h2, i => by
    refine Or.elim (fe κ (by assumption) h2) (fun c2 => ?_) Or.inr
    carried (.forLeft h1 c2)
  | _, _, _, _, _, .forIn h1 h2 h3 h4 h5, i => by
    obtain ⟨_, c2⟩ := fw κ (by assumption) h2
    obtain ⟨_, c3⟩ := fw κ (by assumption) h3
    obtain ⟨_, c4⟩ := fw κ (by assumption) h4
    carried (.forIn h1 c2 c3 c4 h5)
  | _, _, _, _, _, .for_ h1 h2 h3 h4 h5, i => by
    obtain ⟨_, c2⟩ := fw κ (by assumption) h2
    obtain ⟨_, c3⟩ := fw κ (by assumption) h3
    obtain ⟨_, c4⟩ := fw κ (by assumption) h4
    refine Or.elim (fe κ (by assumption) h5) (fun c5 => ?_) Or.inr
    carried (.for_ h1 c2 c3 c4 c5)
  | _, _, _, _, _, .catch_ h1 h2 h3 h4 h5, i => by
    obtain ⟨_, c2⟩ := fw κ (by assumption) h2
    have c3 := ft κ (by assumption) h3
    obtain ⟨_, c4⟩ := fw κ (by assumption) h4
    refine Or.elim (fe κ (by assumption) h5) (fun c5 => ?_) Or.inr
    carried (.catch_ h1 c2 c3 c4 c5)

/-! ### Lines -/

/-- The arguments end in the first lines, or behind them. -/
theorem argsDone_cut (κ : Cutter env env' fn) {cx : Ctx} {r0 ra : List Cell} {ea : Ast.ExArg} {c : Cmd} (i0 : κ.In r0)
    (ia : κ.In ra) (i : κ.In r) {nv u rs u'} (is : κ.In rs) (hh : HeadAt nv env fn u rs r0 rc ea c ra r u')
    (h : ArgsDone env fn cx r0 ra ea c r r') :
    κ.In r' ∧ ArgsDone env' fn cx (κ.tr r0) (κ.tr ra) (ea.onPos κ.κ.m) c (κ.tr r) (κ.tr r') ∨ r' <:+ κ.κ.q0 := by
  cases h with
  | simple h =>
    exact (κ.suf is (leaves_done hh (.simple h))).imp (fun j => ⟨j, .simple (Carry.simple i0 ia i j h)⟩) id
  | function h1 h =>
    obtain ⟨j, c⟩ := Carry.argFunc _ _ _ i h
    exact .inl ⟨j, .function h1 c⟩
  | expr h1 h =>
    obtain ⟨j, c⟩ := fw κ i h
    exact .inl ⟨j, .expr h1 c⟩
  | for_ h1 h =>
    obtain ⟨j, c⟩ := Carry.argFor _ _ _ i h
    exact .inl ⟨j, .for_ h1 c⟩
  | catch_ h1 h =>
    obtain ⟨j, c⟩ := Carry.argCatch _ _ _ i h
    exact .inl ⟨j, .catch_ h1 c⟩
  | endfunction h1 h =>
    obtain ⟨j, c⟩ := fw κ i h
    exact .inl ⟨j, .endfunction h1 c⟩
  | none h1 => exact .inl ⟨i, .none h1⟩

theorem lineErr_cut (κ : Cutter env env' fn) {nv : Bool} {cx : Ctx} {b : Option Inner} {used usedX : List Str} {m : Str}
    {q : Pos} (hu : Names used usedX) (i : κ.In r) (h : LineErr nv env fn cx b used r m q) :
    LineErr nv env' fn cx b usedX (κ.tr r) m q ∨ κ.Out q := by
  cases h with
  | head h => exact Or.elim (headErr_cut κ hu i h) (fun c => .inl (.head c)) .inr
  | place h1 h2 =>
    obtain ⟨i0, ic, ia, i', x, _, h3⟩ := headAt_cut κ hu i h1
    refine .inl ?_
    rw [← κ.posOf ic]
    exact .place h3 h2
  | args h1 h2 h3 =>
    obtain ⟨i0, ic, ia, i', x, _, h4⟩ := headAt_cut κ hu i h1
    exact Or.elim (ctArgErr κ ia h3 i') (fun c => .inl (.args h4 h2 c)) .inr
  | trail h1 h2 h3 h5 =>
    obtain ⟨i0, ic, ia, i', x, _, h4⟩ := headAt_cut κ hu i h1
    rcases argsDone_cut κ i0 ia i' i h1 h3 with ⟨j, c3⟩ | j
    · exact Or.elim (fe κ j h5) (fun c => .inl (.trail h4 h2 c3 c)) .inr
    · exact .inr (trailErr_at j h5)

end Viml
