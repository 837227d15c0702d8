/-
Moving the errors of command lines (`Mover.lean`).
-/
import Verif.Lemmas.MoverExpr

namespace Viml
open Spec Ast

variable {env env' : Env} {fn : Str} {μ : Mover env env' fn} {r r' r1 r2 rc : List Cell}

instance {p : Ast.Pos} {q : Pos} : Mv μ (PlaceOf env fn p q) (PlaceOf env' fn (μ.κ.m p) (μ.mp q)) := ⟨by
  rintro ⟨r, h1, rfl, rfl⟩
  exact μ.buf r h1⟩

theorem nodePos_onPos (m : Ast.Pos → Ast.Pos) (e : Expr) : nodePos (e.onPos m) = m (nodePos e) := by
  cases e <;> first | rfl | simp only [Expr.onPos, nodePos, Ident.onPos]

instance {e : Expr} {q : Pos} : Mv μ (PlaceOf env fn (nodePos e) q) (PlaceOf env' fn (nodePos (e.onPos μ.κ.m)) (μ.mp q)) :=
  ⟨fun h => by rw [nodePos_onPos]; exact mv μ h⟩

/-! ### Patterns and ranges -/

instance {d : Char} {n : Int} {p e : Str} : Mv μ (Pat d n r p e r') (Pat d n (μ.tr r) p e (μ.tr r')) :=
  ⟨fun h => (Carry.pat h (μ.all r)).2⟩
instance {ts : List Str} : Mv μ (Offsets r ts r') (Offsets (μ.tr r) ts (μ.tr r')) :=
  ⟨fun h => (Carry.offsets h (μ.all r)).2⟩
instance {ts : List Str} : Mv μ (Address r ts r') (Address (μ.tr r) ts (μ.tr r')) :=
  ⟨fun h => (Carry.address (μ.all r) h).2⟩
instance {ts : List Str} : Mv μ (Addresses r ts r') (Addresses (μ.tr r) ts (μ.tr r')) :=
  ⟨fun h => (Carry.addresses h (μ.all r)).2⟩
instance {ts : List Str} : Mv μ (WholeFile r ts r') (WholeFile (μ.tr r) ts (μ.tr r')) :=
  ⟨fun h => (Carry.wholeFile (μ.all r) h).2⟩

theorem mvPatErr (μ : Mover env env' fn) {d : Char} : ∀ {n r q}, PatErr env d n r q →
    PatErr env' d n (μ.tr r) (μ.mp q)
  | _, _, _, .last h1 h2 h3 => by moved (.last (mv μ h1) (mv μ h2) (mv μ h3))
  | _, _, _, .esc h1 h2 h3 => .esc (mv μ h1) (mv μ h2) (mvPatErr μ h3)
  | _, _, _, .char h1 h2 h3 h4 => .char (mv μ h1) (mv μ h2) (mv μ h3) (mvPatErr μ h4)

instance {d : Char} {n r q} : Mv μ (PatErr env d n r q)
    (PatErr env' d n (μ.tr r) (μ.mp q)) := ⟨mvPatErr μ⟩

theorem mvAddressErr (μ : Mover env env' fn) : ∀ {r m q}, AddressErr env r m q →
    AddressErr env' (μ.tr r) m (μ.mp q)
  | _, _, _, .pat h1 h2 h3 => .pat (mv μ h1) (mv μ h2) (mv μ h3)
  | _, _, _, .prev h1 h2 h3 h4 => by moved (.prev (mv μ h1) (mv μ h2) (mv μ h3) (mv μ h4))

instance {r m q} : Mv μ (AddressErr env r m q)
    (AddressErr env' (μ.tr r) m (μ.mp q)) := ⟨mvAddressErr μ⟩

theorem mvAddressesErr (μ : Mover env env' fn) : ∀ {r m q}, AddressesErr env r m q →
    AddressesErr env' (μ.tr r) m (μ.mp q)
  | _, _, _, .first h1 h2 => .first (mv μ h1) (mv μ h2)
  | _, _, _, .more h1 h2 h3 h4 h5 h6 => .more (mv μ h1) (mv μ h2) (mv μ h3) (mv μ h4) (mv μ h5) (mvAddressesErr μ h6)

instance {r m q} : Mv μ (AddressesErr env r m q)
    (AddressesErr env' (μ.tr r) m (μ.mp q)) := ⟨mvAddressesErr μ⟩

theorem mvRangeErr (μ : Mover env env' fn) : ∀ {r m q}, RangeErr env r m q →
    RangeErr env' (μ.tr r) m (μ.mp q)
  | _, _, _, .first h1 => .first (mv μ h1)
  | _, _, _, .more h1 h2 h3 h4 h5 => .more (mv μ h1) (mv μ h2) (mv μ h3) (mv μ h4) (mvRangeErr μ h5)

instance {r m q} : Mv μ (RangeErr env r m q)
    (RangeErr env' (μ.tr r) m (μ.mp q)) := ⟨mvRangeErr μ⟩

/-! ### The start of a command -/

instance {w : Str} : Mv μ (WordAt r w r') (WordAt (μ.tr r) w (μ.tr r')) := ⟨fun h => (Carry.wordAt (μ.all r) h).2⟩

theorem wordAt_back (μ : Mover env env' fn) {w : Str} {t : List Cell} (h : WordAt (μ.tr r) w t) :
    ∃ r', WordAt r w r' := by
  obtain ⟨h1, h2⟩ := h
  obtain ⟨r', h3, rfl⟩ := reads_back μ h1
  exact ⟨r', h3, by rw [← Carry.head (μ.all r')]; exact h2⟩

theorem argOpt_back (μ : Mover env env' fn) {ea ea' : Ast.ExArg} {t : List Cell} (h : ArgOpt ea (μ.tr r) ea' t) :
    ∃ ea' r', ArgOpt ea r ea' r' := by
  cases h with
  | bin h => obtain ⟨r', h⟩ := wordAt_back μ h; exact ⟨_, r', .bin h⟩
  | nobin h => obtain ⟨r', h⟩ := wordAt_back μ h; exact ⟨_, r', .nobin h⟩
  | edit h => obtain ⟨r', h⟩ := wordAt_back μ h; exact ⟨_, r', .edit h⟩
  | ff h1 h2 h => obtain ⟨r', h⟩ := wordAt_back μ h; exact ⟨_, r', .ff h1 h2 h⟩
  | enc h1 h2 h3 h4 h5 =>
    obtain ⟨r1, h6, rfl⟩ := reads_back μ h2
    obtain ⟨r2, h7, rfl⟩ := span_back μ h5
    rw [Carry.atEnd (μ.all r1)] at h3
    rw [Carry.head (μ.all r1)] at h4
    exact ⟨_, r2, .enc h1 h6 h3 h4 h7⟩
  | bad h1 h => obtain ⟨r', h⟩ := wordAt_back μ h; exact ⟨_, r', .bad h1 h⟩
  | badChar h1 h2 =>
    obtain ⟨r', h3, rfl⟩ := reads_back μ h1
    rw [Carry.head (μ.all r')] at h2
    exact ⟨_, r', .badChar h3 h2⟩

instance {ea ea' : Ast.ExArg} : Mv μ (ArgOpt ea r ea' r') (ArgOpt (ea.onPos μ.κ.m) (μ.tr r) (ea'.onPos μ.κ.m) (μ.tr r')) :=
  ⟨fun h => (Carry.argOpt (μ.all r) h).2⟩
instance {ea ea' : Ast.ExArg} : Mv μ (ArgOpts ea r ea' r') (ArgOpts (ea.onPos μ.κ.m) (μ.tr r) (ea'.onPos μ.κ.m) (μ.tr r')) :=
  ⟨fun h => (Carry.argOpts h (μ.all r)).2⟩
instance {c : Cmd} {ea ea' : Ast.ExArg} : Mv μ (Options c ea r ea' r')
    (Options c (ea.onPos μ.κ.m) (μ.tr r) (ea'.onPos μ.κ.m) (μ.tr r')) :=
  ⟨fun h => (Carry.options (μ.all r) h).2⟩
instance {c : Cmd} {b : Bool} : Mv μ (Bang c r b r') (Bang c (μ.tr r) b (μ.tr r')) :=
  ⟨fun h => (Carry.bang (μ.all r) h).2⟩
instance {ms : List Modifier} : Mv μ (Mods r ms r') (Mods (μ.tr r) ms (μ.tr r')) := ⟨fun h => (Carry.mods h (μ.all r)).2⟩
instance {r0 : List Cell} {ms : List Modifier} {rg : List Str} : Mv μ (Before r r0 ms rg rc)
    (Before (μ.tr r) (μ.tr r0) ms rg (μ.tr rc)) := ⟨fun h => (Carry.before (μ.all r) h).2.2⟩

theorem mvArgOptsErr (μ : Mover env env' fn) : ∀ {r q}, ArgOptsErr env r q →
    ArgOptsErr env' (μ.tr r) (μ.mp q)
  | _, _, .here h1 h2 => by
    rw [← Mover.posOf]
    refine .here (mv μ h1) fun ea ea' s h => ?_
    obtain ⟨x, r', h3⟩ := argOpt_back μ h
    exact h2 _ _ _ h3
  | _, _, .more h1 h2 h3 => .more (mv μ h1) (mv μ h2) (mvArgOptsErr μ h3)

instance {r q} : Mv μ (ArgOptsErr env r q)
    (ArgOptsErr env' (μ.tr r) (μ.mp q)) := ⟨mvArgOptsErr μ⟩

/-- The same names. -/
def Names (used usedX : List Str) : Prop := ∀ x, x ∈ usedX ↔ x ∈ used

theorem Names.adds {used usedX : List Str} (h : Names used usedX) : Carry.Adds [] used usedX := fun x => by
  rw [h x]; simp

theorem names_of {used usedX : List Str} (h : Carry.Adds [] used usedX) : Names used usedX := fun x => by
  rw [h x]; simp

theorem cmdName_mv (μ : Mover env env' fn) {nv : Bool} {used used' usedX : List Str} {c : Cmd} (hu : Names used usedX)
    (h : CmdName nv used r c r' used') : ∃ usedX', Names used' usedX' ∧ CmdName nv usedX (μ.tr r) c (μ.tr r') usedX' := by
  obtain ⟨_, x, h1, h2⟩ := Carry.cmdName (κ := μ.κ) (μ.all r) hu.adds (fun _ h => by cases h) h
  exact ⟨x, names_of h1, h2⟩

theorem lineIs_back (μ : Mover env env' fn) {l : Str} (h : LineIs (μ.tr r) l) : LineIs r l := by
  obtain ⟨e, h1, h2⟩ := h
  obtain ⟨e', h3, rfl⟩ := reads_back μ h1
  exact ⟨e', h3, (Carry.atEnd (μ.all e')).1 h2⟩

theorem cmdName_back (μ : Mover env env' fn) {nv : Bool} {used usedX' usedX : List Str} {c : Cmd} {t : List Cell}
    (hu : Names used usedX) (h : CmdName nv usedX (μ.tr r) c t usedX') : ∃ c r' used', CmdName nv used r c r' used' := by
  cases h with
  | table h1 h2 h3 h4 h5 =>
    obtain ⟨r', h6, rfl⟩ := reads_back μ h5
    exact ⟨_, r', _, .table (lineIs_back μ h1) h2 h3 h4 h6⟩
  | user h1 h2 h3 h4 =>
    obtain ⟨r1, h5, rfl⟩ := span_back μ h1
    obtain ⟨r2, h6, rfl⟩ := span_back μ h4
    exact ⟨_, r2, _, .user h5 h2 (fun h => h3 ((hu _).2 h)) h6⟩
  | again h1 h2 h3 =>
    obtain ⟨r1, h5, rfl⟩ := span_back μ h1
    exact ⟨_, r1, _, .again h5 h2 ((hu _).1 h3)⟩

theorem namedAt_mv (μ : Mover env env' fn) {nv : Bool} {used used' usedX : List Str} {r0 : List Cell} {ms rg} {c : Cmd}
    (hu : Names used usedX) (h : NamedAt nv used r r0 ms rg rc c r1 used') : ∃ usedX', Names used' usedX' ∧
      NamedAt nv usedX (μ.tr r) (μ.tr r0) ms rg (μ.tr rc) c (μ.tr r1) usedX' := by
  obtain ⟨h1, h2, h3, h4⟩ := h
  obtain ⟨x, h5, h6⟩ := cmdName_mv μ hu h4
  exact ⟨x, h5, mv μ h1, mv μ h2, mv μ h3, h6⟩

theorem argsAt_mv (μ : Mover env env' fn) {nv : Bool} {used used' usedX : List Str} {r0 ra : List Cell} {ea} {c : Cmd}
    (hu : Names used usedX) (h : ArgsAt nv env fn used r r0 rc ea c ra used') : ∃ usedX', Names used' usedX' ∧
      ArgsAt nv env' fn usedX (μ.tr r) (μ.tr r0) (μ.tr rc) (ea.onPos μ.κ.m) c (μ.tr ra) usedX' := by
  obtain ⟨ms, rg, r1, b, r2, h1, h2, h3, rfl⟩ := h
  obtain ⟨x, h5, h6⟩ := namedAt_mv μ hu h1
  refine ⟨x, h5, ms, rg, _, b, _, h6, mv μ h2, mv μ h3, ?_⟩
  simp only [Ast.ExArg.onPos, Option.map_some, Carry.here (μ.all _)]

theorem headAt_mv (μ : Mover env env' fn) {nv : Bool} {used used' usedX : List Str} {r0 ra : List Cell} {ea} {c : Cmd}
    (hu : Names used usedX) (h : HeadAt nv env fn used r r0 rc ea c ra r' used') : ∃ usedX', Names used' usedX' ∧
      HeadAt nv env' fn usedX (μ.tr r) (μ.tr r0) (μ.tr rc) (ea.onPos μ.κ.m) c (μ.tr ra) (μ.tr r') usedX' := by
  obtain ⟨ea0, h1, h2⟩ := h
  obtain ⟨x, h5, h6⟩ := argsAt_mv μ hu h1
  exact ⟨x, h5, _, h6, mv μ h2⟩

theorem headErr_mv (μ : Mover env env' fn) {nv : Bool} {used usedX : List Str} {m : Str} {q : Pos}
    (hu : Names used usedX) (h : HeadErr nv env fn used r m q) : HeadErr nv env' fn usedX (μ.tr r) m (μ.mp q) := by
  cases h with
  | range h1 h2 h3 h4 h5 h6 h7 => exact .range (mv μ h1) (mv μ h2) (mv μ h3) (mv μ h4) (mv μ h5) h6 (mv μ h7)
  | name h1 h2 h3 h4 h5 =>
    rw [← Mover.posOf]
    refine .name (mv μ h1) (mv μ h2) (mv μ h3) (fun c s u h => ?_) (mv μ h5)
    obtain ⟨c', r', u', h6⟩ := cmdName_back μ hu h
    exact h4 _ _ _ h6
  | bang h1 h2 h3 h4 h5 =>
    obtain ⟨x, _, h6⟩ := namedAt_mv μ hu h1
    rw [← Mover.posOf]
    exact .bang h6 (mv μ h2) h3 h4 h5
  | argOpt h1 h2 h3 =>
    obtain ⟨x, _, h6⟩ := argsAt_mv μ hu h1
    exact .argOpt h6 h2 (mv μ h3)
  | write h1 h2 h3 h4 h5 =>
    obtain ⟨x, _, h6⟩ := argsAt_mv μ hu h1
    rw [← Mover.posOf]
    exact .write h6 (mv μ h2) h3 (mv μ h4) (mv μ h5)

/-! ### Text of raw commands -/

instance : Mv μ (GrepPat r r') (GrepPat (μ.tr r) (μ.tr r')) := ⟨fun h => (Carry.grepPat (μ.all r) h).2⟩
instance {c : Cmd} {ra : List Cell} {pc : Option Char} : Mi μ (EndsRaw c ra pc r) (EndsRaw c (μ.tr ra) pc (μ.tr r)) :=
  ⟨(Carry.endsRaw (μ.all r) (μ.all ra)).symm⟩
instance : Mv μ (WinArg r r') (WinArg (μ.tr r) (μ.tr r')) := ⟨fun h => (Carry.winArg (μ.all r) h).2⟩
instance : Mv μ (Drop r r') (Drop (μ.tr r) (μ.tr r')) := ⟨fun h => (Carry.drop_ (μ.all r) h).2⟩

theorem nextChar_tr (μ : Mover env env' fn) (r : List Cell) : nextChar (μ.tr r) = nextChar r := by
  unfold nextChar; rw [Carry.head (μ.all r)]

theorem mvGrepErr (μ : Mover env env' fn) : ∀ {r q}, GrepErr env r q →
    GrepErr env' (μ.tr r) (μ.mp q)
  | _, _, .mk h1 h2 h3 => .mk (mv μ h1) (mv μ h2) (mv μ h3)

instance {r q} : Mv μ (GrepErr env r q)
    (GrepErr env' (μ.tr r) (μ.mp q)) := ⟨mvGrepErr μ⟩

theorem mvRawRunErr (μ : Mover env env' fn) {c : Cmd} {ra : List Cell} : ∀ {pc r m q}, RawRunErr env fn c ra pc r m q →
    RawRunErr env' fn c (μ.tr ra) pc (μ.tr r) m (μ.mp q)
  | _, _, _, _, .expr h1 h2 h3 => .expr (mv μ h1) (mv μ h2) (mv μ h3)
  | _, _, _, _, .close h1 h2 h3 h4 => by
    rw [← Mover.posOf, ← nextChar_tr μ]
    exact .close h1 (mv μ h2) (mv μ h3) (mv μ h4)
  | _, _, _, _, .ctrlV h1 h2 h3 => .ctrlV (mv μ h1) (mv μ h2) (mvRawRunErr μ h3)
  | _, _, _, _, .more h1 h2 h3 h4 h5 => .more (mv μ h1) (mv μ h2) (mv μ h3) (mv μ h4) (mvRawRunErr μ h5)
  | _, _, _, _, .char h1 h2 h3 h4 h5 => .char (mv μ h1) h2 (mv μ h3) (fun h => h4 ((Mi.mi μ).2 h)) (mvRawRunErr μ h5)

instance {c : Cmd} {ra : List Cell} {pc r m q} : Mv μ (RawRunErr env fn c ra pc r m q)
    (RawRunErr env' fn c (μ.tr ra) pc (μ.tr r) m (μ.mp q)) := ⟨mvRawRunErr μ⟩

theorem mvRawErr (μ : Mover env env' fn) : ∀ {c f ra r m q}, RawErr env fn c f ra r m q →
    RawErr env' fn c f (μ.tr ra) (μ.tr r) m (μ.mp q)
  | _, _, _, _, _, _, .pat h1 h2 h3 h4 => .pat (mv μ h1) (mv μ h2) (mv μ h3) (mv μ h4)
  | _, _, _, _, _, _, .run h1 h2 h3 h4 h5 => .run h1 h2 (fun h => mv μ (h3 h)) (fun h => mv μ (h4 h)) (mv μ h5)

instance {c f ra r m q} : Mv μ (RawErr env fn c f ra r m q)
    (RawErr env' fn c f (μ.tr ra) (μ.tr r) m (μ.mp q)) := ⟨mvRawErr μ⟩

theorem mvWinErr (μ : Mover env env' fn) : ∀ {r m q}, WinErr env r m q →
    WinErr env' (μ.tr r) m (μ.mp q)
  | _, _, _, .none h1 => by moved (.none (mv μ h1))
  | _, _, _, .second h1 h2 h3 => by moved (.second (mv μ h1) (mv μ h2) (mv μ h3))
  | _, _, _, .blank h1 h2 h3 => by moved (.blank (mv μ h1) (mv μ h2) (mv μ h3))
  | _, _, _, .trail h1 h2 h3 => by moved (.trail (mv μ h1) (mv μ h2) (mv μ h3))

instance {r m q} : Mv μ (WinErr env r m q)
    (WinErr env' (μ.tr r) m (μ.mp q)) := ⟨mvWinErr μ⟩

theorem mvSynErr (μ : Mover env env' fn) : ∀ {r q}, SynErr env r q →
    SynErr env' (μ.tr r) (μ.mp q)
  | _, _, .pat h1 h2 h3 => .pat (mv μ h1) (mv μ h2) (mv μ h3)
  | _, _, .patMore h1 h2 h3 h4 h5 => .patMore (mv μ h1) (mv μ h2) (mv μ h3) (mv μ h4) (mvSynErr μ h5)
  | _, _, .eq h1 h2 => .eq (mv μ h1) (mv μ h2)
  | _, _, .eqMore h1 h2 h3 h4 => .eqMore (mv μ h1) (mv μ h2) (mv μ h3) (mvSynErr μ h4)
  | _, _, .char h1 h2 h3 => .char (mv μ h1) (mv μ h2) (mvSynErr μ h3)

instance {r q} : Mv μ (SynErr env r q)
    (SynErr env' (μ.tr r) (μ.mp q)) := ⟨mvSynErr μ⟩

theorem mvTrailErr (μ : Mover env env' fn) : ∀ {r m q}, TrailErr env r m q →
    TrailErr env' (μ.tr r) m (μ.mp q)
  | _, _, _, .mk h1 h2 h3 h4 => by moved (.mk (mv μ h1) (mv μ h2) (mv μ h3) (mv μ h4))

instance {r m q} : Mv μ (TrailErr env r m q)
    (TrailErr env' (μ.tr r) m (μ.mp q)) := ⟨mvTrailErr μ⟩

/-! ### Assignment targets -/

theorem lvOperand_back (μ : Mover env env' fn) {ty : TT} (h : LvOperand ty (μ.tr r)) : LvOperand ty r := by
  rcases h with h | h | h | h | h | ⟨h, v, s, h1, h2⟩
  · exact .inl h
  · exact .inr (.inl h)
  · exact .inr (.inr (.inl h))
  · exact .inr (.inr (.inr (.inl h)))
  · exact .inr (.inr (.inr (.inr (.inl h))))
  · obtain ⟨r', h3, _⟩ := reads_back μ h1
    exact .inr (.inr (.inr (.inr (.inr ⟨h, v, r', h3, h2⟩))))

instance {e : Expr} : Mv μ (LvChain env fn r e r') (LvChain env' fn (μ.tr r) (e.onPos μ.κ.m) (μ.tr r')) :=
  ⟨fun h => (Carry.lvChain h (μ.all r)).2⟩
instance {e : Expr} : Mv μ (Lv env fn r e r') (Lv env' fn (μ.tr r) (e.onPos μ.κ.m) (μ.tr r')) :=
  ⟨fun h => (Carry.lv (μ.all r) h).2⟩
instance {e : Expr} : Mv μ (Target env fn r e r') (Target env' fn (μ.tr r) (e.onPos μ.κ.m) (μ.tr r')) :=
  ⟨fun h => (Carry.target_ (μ.all r) h).2⟩
instance {e : Expr} : Mv μ (FuncName env fn r e r') (FuncName env' fn (μ.tr r) (e.onPos μ.κ.m) (μ.tr r')) :=
  ⟨fun h => (Carry.funcName (μ.all r) h).2⟩
instance {i : Ident} : Mv μ (Lv env fn r (.ident i) r') (Lv env' fn (μ.tr r) (.ident (i.onPos μ.κ.m)) (μ.tr r')) :=
  ⟨fun h => mv μ h⟩
instance {i : Ident} : Mv μ (FuncName env fn r (.ident i) r') (FuncName env' fn (μ.tr r) (.ident (i.onPos μ.κ.m)) (μ.tr r')) :=
  ⟨fun h => mv μ h⟩
instance {e : Expr} : Mi μ (funcTarget e) (funcTarget (e.onPos μ.κ.m)) := ⟨(onPos_funcTarget e).symm⟩
instance {e : Expr} {m : Str} : Mv μ (Unlockable e m) (Unlockable (e.onPos μ.κ.m) m) := ⟨fun h => by
  cases h <;> simp only [Expr.onPos] <;> constructor⟩
instance {e : Expr} : Mv μ (FuncNameOK e) (FuncNameOK (e.onPos μ.κ.m)) := ⟨onPos_funcNameOK e⟩

theorem mvLvErr (μ : Mover env env' fn) : ∀ {r m q}, LvErr env fn r m q →
    LvErr env' fn (μ.tr r) m (μ.mp q)
  | _, _, _, .lex h1 => .lex (mv μ h1)
  | _, _, _, .token h1 h2 => .token (mv μ h1) fun h => h2 (lvOperand_back μ h)
  | _, _, _, .name h1 h2 h3 => .name (mv μ h1) (mv μ h2) (mv μ h3)
  | _, _, _, .sid h1 h2 h3 h4 => .sid (mv μ h1) (mv μ h2) (mv μ h3) (mv μ h4)
  | _, _, _, .after h1 h2 => .after (mv μ h1) (mv μ h2)
  | _, _, _, .subscript h1 h2 h3 h4 => .subscript (mv μ h1) (mv μ h2) (mv μ h3) (mv μ h4)

instance {r m q} : Mv μ (LvErr env fn r m q)
    (LvErr env' fn (μ.tr r) m (μ.mp q)) := ⟨mvLvErr μ⟩

theorem mvTargetErr (μ : Mover env env' fn) : ∀ {r m q}, TargetErr env fn r m q →
    TargetErr env' fn (μ.tr r) m (μ.mp q)
  | _, _, _, .lv h1 => .lv (mv μ h1)
  | _, _, _, .name h1 h2 h3 => .name (i := Ident.onPos μ.κ.m _) (mv μ h1) h2 (mv μ h3)

instance {r m q} : Mv μ (TargetErr env fn r m q)
    (TargetErr env' fn (μ.tr r) m (μ.mp q)) := ⟨mvTargetErr μ⟩

theorem mvConstErr (μ : Mover env env' fn) : ∀ {r m q}, ConstErr env fn r m q →
    ConstErr env' fn (μ.tr r) m (μ.mp q)
  | _, _, _, .target h1 => .target (mv μ h1)
  | _, _, _, .kind h1 h2 h3 => .kind (mv μ h1) (mv μ h2) (mv μ h3)

instance {r m q} : Mv μ (ConstErr env fn r m q)
    (ConstErr env' fn (μ.tr r) m (μ.mp q)) := ⟨mvConstErr μ⟩

theorem mvFuncNameErr (μ : Mover env env' fn) : ∀ {r m q}, FuncNameErr env fn r m q →
    FuncNameErr env' fn (μ.tr r) m (μ.mp q)
  | _, _, _, .lv h1 => .lv (mv μ h1)
  | _, _, _, .kind h1 h2 h3 => .kind (mv μ h1) (mv μ h2) (mv μ h3)

instance {r m q} : Mv μ (FuncNameErr env fn r m q)
    (FuncNameErr env' fn (μ.tr r) m (μ.mp q)) := ⟨mvFuncNameErr μ⟩

theorem mvListWant (μ : Mover env env' fn) : ∀ {p r m q}, ListWant env p r m q →
    ListWant env' p (μ.tr r) m (μ.mp q)
  | _, _, _, _, .lex h1 => .lex (mv μ h1)
  | _, _, _, _, .token h1 h2 => .token (mv μ h1) (mv μ h2)

instance {p r m q} : Mv μ (ListWant env p r m q)
    (ListWant env' p (μ.tr r) m (μ.mp q)) := ⟨mvListWant μ⟩

theorem mvTargetListErr (μ : Mover env env' fn) : ∀ {r m q}, TargetListErr env fn r m q →
    TargetListErr env' fn (μ.tr r) m (μ.mp q)
  | _, _, _, .target h1 => .target (mv μ h1)
  | _, _, _, .sep h1 h2 => .sep (mv μ h1) (mv μ h2)
  | _, _, _, .more h1 h2 h3 => .more (mv μ h1) (mv μ h2) (mvTargetListErr μ h3)
  | _, _, _, .rest h1 h2 h3 => .rest (mv μ h1) (mv μ h2) (mv μ h3)
  | _, _, _, .close h1 h2 h3 h4 => .close (mv μ h1) (mv μ h2) (mv μ h3) (mv μ h4)

instance {r m q} : Mv μ (TargetListErr env fn r m q)
    (TargetListErr env' fn (μ.tr r) m (μ.mp q)) := ⟨mvTargetListErr μ⟩

theorem lhsErr_mv (μ : Mover env env' fn) {S S' : List Cell → Str → Pos → Prop}
    (hS : ∀ {r m q}, S r m q → S' (μ.tr r) m (μ.mp q)) {m : Str} {q : Pos} (h : LhsErr env fn S r m q) :
    LhsErr env' fn S' (μ.tr r) m (μ.mp q) := by
  cases h with
  | lex h => exact .lex (mv μ h)
  | one h1 h2 => exact .one (mv μ h1) (hS h2)
  | list h1 h2 => exact .list (mv μ h1) (mv μ h2)

instance {m : Str} {q : Pos} : Mv μ (LhsErr env fn (TargetErr env fn) r m q)
    (LhsErr env' fn (TargetErr env' fn) (μ.tr r) m (μ.mp q)) := ⟨lhsErr_mv μ (mv μ)⟩
instance {m : Str} {q : Pos} : Mv μ (LhsErr env fn (ConstErr env fn) r m q)
    (LhsErr env' fn (ConstErr env' fn) (μ.tr r) m (μ.mp q)) := ⟨lhsErr_mv μ (mv μ)⟩

theorem mvTargetsErr (μ : Mover env env' fn) : ∀ {r m q}, TargetsErr env fn r m q →
    TargetsErr env' fn (μ.tr r) m (μ.mp q)
  | _, _, _, .first h1 h2 h3 => .first (mv μ h1) (mv μ h2) (mv μ h3)
  | _, _, _, .more h1 h2 h3 h4 => .more (mv μ h1) (mv μ h2) (mv μ h3) (mvTargetsErr μ h4)

instance {r m q} : Mv μ (TargetsErr env fn r m q)
    (TargetsErr env' fn (μ.tr r) m (μ.mp q)) := ⟨mvTargetsErr μ⟩

theorem mvLockErr (μ : Mover env env' fn) : ∀ {r m q}, LockErr env fn r m q →
    LockErr env' fn (μ.tr r) m (μ.mp q)
  | _, _, _, .first h1 => .first (mv μ h1)
  | _, _, _, .more h1 h2 => .more (mv μ h1) (mv μ h2)

instance {r m q} : Mv μ (LockErr env fn r m q)
    (LockErr env' fn (μ.tr r) m (μ.mp q)) := ⟨mvLockErr μ⟩

theorem mvExprsErr (μ : Mover env env' fn) : ∀ {r m q}, ExprsErr env fn r m q →
    ExprsErr env' fn (μ.tr r) m (μ.mp q)
  | _, _, _, .first h1 h2 h3 => .first (mv μ h1) (mv μ h2) (mv μ h3)
  | _, _, _, .more h1 h2 h3 h4 => .more (mv μ h1) (mv μ h2) (mv μ h3) (mvExprsErr μ h4)

instance {r m q} : Mv μ (ExprsErr env fn r m q)
    (ExprsErr env' fn (μ.tr r) m (μ.mp q)) := ⟨mvExprsErr μ⟩

/-! ### Functions -/

instance {used : List Str} {d : Bool} {p : Ident} {ds : List Expr} : Mv μ (Param env fn used d r p ds r')
    (Param env' fn used d (μ.tr r) (p.onPos μ.κ.m) (Expr.onPosL μ.κ.m ds) (μ.tr r')) :=
  ⟨fun h => (Carry.param (μ.all r) h).2⟩
instance {is : List Ident} {ds : List Expr} : Mv μ (FuncParamsAt env fn r is ds r')
    (FuncParamsAt env' fn (μ.tr r) (is.map (Ident.onPos μ.κ.m)) (Expr.onPosL μ.κ.m ds) (μ.tr r')) :=
  ⟨fun h => (Carry.funcParams (μ.all r) h).2⟩
instance {used : List Str} {t : Token} : Mv μ (ParamName used t) (ParamName used (μ.tok t)) := ⟨id⟩

theorem mvParamListErr (μ : Mover env env' fn) : ∀ {used d r m q}, ParamListErr env fn used d r m q →
    ParamListErr env' fn used d (μ.tr r) m (μ.mp q)
  | _, _, _, _, _, .token h1 => .token (mv μ h1)
  | _, _, _, _, _, .illegal h1 h2 h3 => .illegal (mv μ h1) (mv μ h2) (mv μ h3)
  | _, _, _, _, _, .twice h1 h2 h3 h4 h5 h6 => .twice (mv μ h1) (mv μ h2) (mv μ h3) (mv μ h4) (mv μ h5) (mv μ h6)
  | _, _, _, _, _, .after h1 h2 h3 => .after (mv μ h1) (mv μ h2) (mv μ h3)
  | _, _, _, _, _, .default h1 h2 h3 h4 => .default (mv μ h1) (mv μ h2) (mv μ h3) (mv μ h4)
  | _, _, _, _, _, .noDefault h1 h2 h3 => .noDefault (mv μ h1) (mv μ h2) (mv μ h3)
  | _, _, _, _, _, .white h1 h2 h3 => by moved (.white (mv μ h1) (mv μ h2) (mv μ h3))
  | _, _, _, _, _, .sep h1 h2 => .sep (mv μ h1) (mv μ h2)
  | _, _, _, _, _, .comma h1 h2 h3 h4 => .comma (mv μ h1) (mv μ h2) (mv μ h3) (mv μ h4)
  | _, _, _, _, _, .more h1 h2 h3 h4 h5 => by
    refine .more (mv μ h1) (mv μ h2) (mv μ h3) (mv μ h4) ?_
    rw [Carry.isEmpty_onPos]
    exact mvParamListErr μ h5
  | _, _, _, _, _, .dots h1 h2 => .dots (mv μ h1) (mv μ h2)

instance {used d r m q} : Mv μ (ParamListErr env fn used d r m q)
    (ParamListErr env' fn used d (μ.tr r) m (μ.mp q)) := ⟨mvParamListErr μ⟩

theorem mvParamsErr (μ : Mover env env' fn) : ∀ {r m q}, ParamsErr env fn r m q →
    ParamsErr env' fn (μ.tr r) m (μ.mp q)
  | _, _, _, .lex h1 => .lex (mv μ h1)
  | _, _, _, .list h1 h2 => .list (mv μ h1) (mv μ h2)

instance {r m q} : Mv μ (ParamsErr env fn r m q)
    (ParamsErr env' fn (μ.tr r) m (μ.mp q)) := ⟨mvParamsErr μ⟩

theorem mvAttrErr (μ : Mover env env' fn) : ∀ {r m q}, AttrErr env r m q →
    AttrErr env' (μ.tr r) m (μ.mp q)
  | _, _, _, .word h1 h2 h3 h4 => by moved (.word (mv μ h1) (mv μ h2) (mv μ h3) (mv μ h4))
  | _, _, _, .more h1 h2 h3 h4 => .more (mv μ h1) (mv μ h2) (mv μ h3) (mvAttrErr μ h4)

instance {r m q} : Mv μ (AttrErr env r m q)
    (AttrErr env' (μ.tr r) m (μ.mp q)) := ⟨mvAttrErr μ⟩

theorem mvFuncErr (μ : Mover env env' fn) : ∀ {r m q}, FuncErr env fn r m q →
    FuncErr env' fn (μ.tr r) m (μ.mp q)
  | _, _, _, .name h1 h2 h3 h4 => .name (mv μ h1) (mv μ h2) (mv μ h3) (mv μ h4)
  | _, _, _, .illegal h1 h2 h3 h4 h5 h6 => .illegal (i := Ident.onPos μ.κ.m _) (mv μ h1) (mv μ h2) (mv μ h3) (mv μ h4)
      (fun h => h5 fun j e => by cases e; exact h (Ident.onPos μ.κ.m _) rfl) (mv μ h6)
  | _, _, _, .params h1 h2 h3 h4 h5 h6 h7 h8 => .params (mv μ h1) (mv μ h2) (mv μ h3) (mv μ h4) (mv μ h5) (mv μ h6) (mv μ h7) (mv μ h8)
  | _, _, _, .attr h1 h2 h3 h4 h5 h6 h7 h8 h9 => .attr (mv μ h1) (mv μ h2) (mv μ h3) (mv μ h4) (mv μ h5) (mv μ h6) (mv μ h7) (mv μ h8) (mv μ h9)

instance {r m q} : Mv μ (FuncErr env fn r m q)
    (FuncErr env' fn (μ.tr r) m (μ.mp q)) := ⟨mvFuncErr μ⟩

/-! ### :let -/

instance {fs : List (Pos × Str)} {k : Str} : Mv μ (HereHead env r fs k r') (∃ fs', HereHead env' (μ.tr r) fs' k (μ.tr r')) :=
  ⟨fun h => have ⟨_, fs', h1, _⟩ := Carry.hereHead h (μ.all r); ⟨fs', h1⟩⟩
instance {cm : List Stmt} : Mv μ (Trail env fn r cm r') (Trail env' fn (μ.tr r) (Stmt.onPosL μ.κ.m cm) (μ.tr r')) :=
  ⟨fun h => (Carry.trail (μ.all r) h).2⟩
instance {n : Nat} : Mv μ (Depth r n r') (Depth (μ.tr r) n (μ.tr r')) := ⟨fun h => (Carry.depth (μ.all r) h).2⟩

theorem hLines_back (μ : Mover env env' fn) {k : Str} {ls : List (Pos × Str)} {s t : List Cell} (h : HLines env' k s ls t) :
    ∀ {r}, s = μ.tr r → ∃ ls' r', HLines env k r ls' r' := by
  induction h with
  | done h1 h2 =>
    rintro r rfl
    obtain ⟨r', h3, rfl⟩ := reads_back μ h1
    exact ⟨_, _, .done h3 ((Carry.atEnd (μ.all r')).1 h2)⟩
  | cons h1 h2 h3 _ ih =>
    rintro r rfl
    obtain ⟨r', h4, h5⟩ := reads_back μ h1
    cases r' with
    | nil => rw [μ.nil] at h5; cases h5
    | cons c r' =>
      rw [μ.cons] at h5
      injection h5 with e1 e2
      obtain ⟨ls', r2, h6⟩ := ih e2
      exact ⟨_, _, .cons h4 (by rw [← μ.κ.char, ← e1, h2]) h3 h6⟩

theorem mvNoMarker (μ : Mover env env' fn) : ∀ {r r'}, NoMarker r r' →
    NoMarker (μ.tr r) (μ.tr r')
  | _, _, .none h1 h2 => .none (mv μ h1) (mv μ h2)
  | _, _, .flag h1 h2 h3 h4 => .flag (mv μ h1) (mv μ h2) (mv μ h3) (mvNoMarker μ h4)

instance {r r'} : Mv μ (NoMarker r r')
    (NoMarker (μ.tr r) (μ.tr r')) := ⟨mvNoMarker μ⟩

theorem mvHereErr (μ : Mover env env' fn) : ∀ {r m q}, HereErr env fn r m q →
    HereErr env' fn (μ.tr r) m (μ.mp q)
  | _, _, _, .marker h1 => by moved (.marker (mv μ h1))
  | _, _, _, .trail h1 h2 => by
    obtain ⟨fs', h3⟩ := mv μ h1
    exact .trail h3 (mv μ h2)
  | _, _, _, .body h1 h2 h3 => by
    obtain ⟨fs', h4⟩ := mv μ h1
    rw [← Mover.eof]
    refine .body h4 (mv μ h2) fun b s h => ?_
    obtain ⟨b', s', h5⟩ := hLines_back μ h rfl
    exact h3 _ _ h5

instance {r m q} : Mv μ (HereErr env fn r m q)
    (HereErr env' fn (μ.tr r) m (μ.mp q)) := ⟨mvHereErr μ⟩

/-! ### Arguments of commands -/

theorem kindsTarget (μ : Mover env env' fn) : Carry.Kinds μ.κ (Target env fn) (Target env' fn) :=
  fun i h => Carry.target_ i h
theorem kindsConst (μ : Mover env env' fn) : Carry.Kinds μ.κ (ConstTarget env fn) (ConstTarget env' fn) :=
  fun i h => Carry.constTarget i h

instance : Mv μ (FuncListing env fn r) (FuncListing env' fn (μ.tr r)) := ⟨Carry.funcListing (μ.all r)⟩
instance {ops : List Str} : Mv μ (LetListing env fn (Target env fn) ops r) (LetListing env' fn (Target env' fn) ops (μ.tr r)) :=
  ⟨Carry.letListing (kindsTarget μ) (μ.all r)⟩
instance {ops : List Str} : Mv μ (LetListing env fn (ConstTarget env fn) ops r)
    (LetListing env' fn (ConstTarget env' fn) ops (μ.tr r)) := ⟨Carry.letListing (kindsConst μ) (μ.all r)⟩
instance {l ls x} : Mv μ (LetLeft env fn (Target env fn) r l ls x r') (LetLeft env' fn (Target env' fn) (μ.tr r)
    (Expr.onPosO μ.κ.m l) (Expr.onPosL μ.κ.m ls) (Expr.onPosO μ.κ.m x) (μ.tr r')) :=
  ⟨fun h => (Carry.letLeft (kindsTarget μ) (μ.all r) h).2⟩
instance {l ls x} : Mv μ (LetLeft env fn (ConstTarget env fn) r l ls x r') (LetLeft env' fn (ConstTarget env' fn) (μ.tr r)
    (Expr.onPosO μ.κ.m l) (Expr.onPosL μ.κ.m ls) (Expr.onPosO μ.κ.m x) (μ.tr r')) :=
  ⟨fun h => (Carry.letLeft (kindsConst μ) (μ.all r) h).2⟩
instance {l ls x} : Mv μ (LhsAt env fn (Target env fn) r l ls x r') (LhsAt env' fn (Target env' fn) (μ.tr r)
    (Expr.onPosO μ.κ.m l) (Expr.onPosL μ.κ.m ls) (Expr.onPosO μ.κ.m x) (μ.tr r')) :=
  ⟨fun h => (Carry.lhsAt (kindsTarget μ) (μ.all r) h).2⟩
instance {e : Expr} : Mv μ (∀ f p as, e ≠ .call f p as) (∀ f p as, e.onPos μ.κ.m ≠ .call f p as) := ⟨fun h f p as => by
  cases e <;> first | (simp only [Expr.onPos]; intro h; cases h; done) | exact absurd rfl (h _ _ _)⟩

theorem mvArgErr (μ : Mover env env' fn) : ∀ {c f ra r m q}, ArgErr env fn c f ra r m q →
    ArgErr env' fn c f (μ.tr ra) (μ.tr r) m (μ.mp q)
  | _, _, _, _, _, _, .raw h1 h2 => .raw (mv μ h1) (mv μ h2)
  | _, _, _, _, _, _, .wincmd h1 h2 => .wincmd (mv μ h1) (mv μ h2)
  | _, _, _, _, _, _, .syntax h1 h2 => .syntax (mv μ h1) (mv μ h2)
  | _, _, _, _, _, _, .function h1 h2 => .function (mv μ h1) (mv μ h2)
  | _, _, _, _, _, _, .funcListing h1 h2 h3 => .funcListing (mv μ h1) (mv μ h2) (mv μ h3)
  | _, _, _, _, _, _, .delfunction h1 h2 => .delfunction (mv μ h1) (mv μ h2)
  | _, _, _, _, _, _, .return_ h1 h2 h3 h4 => .return_ (mv μ h1) (mv μ h2) (mv μ h3) (mv μ h4)
  | _, _, _, _, _, _, .callNone h1 h2 h3 => by moved (.callNone (mv μ h1) (mv μ h2) (mv μ h3))
  | _, _, _, _, _, _, .call h1 h2 h3 h4 => .call (mv μ h1) (mv μ h2) (mv μ h3) (mv μ h4)
  | _, _, _, _, _, _, .noCall h1 h2 h3 h4 h5 h6 => .noCall (mv μ h1) (mv μ h2) (mv μ h3) (mv μ h4) (mv μ h5) (mv μ h6)
  | _, _, _, _, _, _, .letLeft h1 h2 h3 h4 => .letLeft (mv μ h1) (mv μ h2) (mv μ h3) (mv μ h4)
  | _, _, _, _, _, _, .letListing h1 h2 h3 => .letListing (mv μ h1) (mv μ h2) (mv μ h3)
  | _, _, _, _, _, _, .let_ h1 h2 h3 h4 h5 h6 => .let_ (mv μ h1) (mv μ h2) (mv μ h3) (mv μ h4) (mv μ h5) (mv μ h6)
  | _, _, _, _, _, _, .heredoc h1 h2 h3 h4 => .heredoc (mv μ h1) (mv μ h2) (mv μ h3) (mv μ h4)
  | _, _, _, _, _, _, .constLeft h1 h2 h3 h4 => .constLeft (mv μ h1) (mv μ h2) (mv μ h3) (mv μ h4)
  | _, _, _, _, _, _, .constListing h1 h2 h3 => .constListing (mv μ h1) (mv μ h2) (mv μ h3)
  | _, _, _, _, _, _, .const_ h1 h2 h3 h4 => .const_ (mv μ h1) (mv μ h2) (mv μ h3) (mv μ h4)
  | _, _, _, _, _, _, .unlet h1 h2 => .unlet (mv μ h1) (mv μ h2)
  | _, _, _, _, _, _, .lock h1 h2 h3 => .lock (mv μ h1) (mv μ h2) (mv μ h3)
  | _, _, _, _, _, _, .expr h1 h2 => .expr (mv μ h1) (mv μ h2)
  | _, _, _, _, _, _, .exprs h1 h2 => .exprs (mv μ h1) (mv μ h2)
  | _, _, _, _, _, _, .forLeft h1 h2 => .forLeft (mv μ h1) (mv μ h2)
  | _, _, _, _, _, _, .forIn h1 h2 h3 h4 h5 => by moved (.forIn (mv μ h1) (mv μ h2) (mv μ h3) (mv μ h4) (mv μ h5))
  | _, _, _, _, _, _, .for_ h1 h2 h3 h4 h5 => .for_ (mv μ h1) (mv μ h2) (mv μ h3) (mv μ h4) (mv μ h5)
  | _, _, _, _, _, _, .catch_ h1 h2 h3 h4 h5 => .catch_ (mv μ h1) (mv μ h2) (mv μ h3) (mv μ h4) (mv μ h5)

instance {c f ra r m q} : Mv μ (ArgErr env fn c f ra r m q)
    (ArgErr env' fn c f (μ.tr ra) (μ.tr r) m (μ.mp q)) := ⟨mvArgErr μ⟩

instance {cx : Ctx} {r0 ra : List Cell} {ea : Ast.ExArg} {c : Cmd} {xs : List Stmt} :
    Mv μ (Spec.Simple env fn cx r0 ra ea c r xs r')
      (Spec.Simple env' fn cx (μ.tr r0) (μ.tr ra) (ea.onPos μ.κ.m) c (μ.tr r) (Stmt.onPosL μ.κ.m xs) (μ.tr r')) :=
  ⟨Carry.simple (μ.all _) (μ.all _) (μ.all _) (μ.all _)⟩
instance {a} : Mv μ (FuncArgs env fn r a r') (FuncArgs env' fn (μ.tr r)
    (a.1.onPos μ.κ.m, a.2.1.map (Ident.onPos μ.κ.m), Expr.onPosL μ.κ.m a.2.2.1, a.2.2.2) (μ.tr r')) :=
  ⟨fun h => (Carry.argFunc _ _ _ (μ.all r) h).2⟩
instance {a} : Mv μ (ForArgs env fn r a r') (ForArgs env' fn (μ.tr r)
    (Expr.onPosO μ.κ.m a.1, Expr.onPosL μ.κ.m a.2.1, Expr.onPosO μ.κ.m a.2.2.1, a.2.2.2.onPos μ.κ.m) (μ.tr r')) :=
  ⟨fun h => (Carry.argFor _ _ _ (μ.all r) h).2⟩
instance {a} : Mv μ (CatchArg r a r') (CatchArg (μ.tr r) a (μ.tr r')) :=
  ⟨fun h => (Carry.argCatch _ _ _ (μ.all r) h).2⟩

theorem mvArgsDone (μ : Mover env env' fn) : ∀ {cx r0 ra ea c r r'}, ArgsDone env fn cx r0 ra ea c r r' →
    ArgsDone env' fn cx (μ.tr r0) (μ.tr ra) (ea.onPos μ.κ.m) c (μ.tr r) (μ.tr r')
  | _, _, _, _, _, _, _, .simple h1 => .simple (mv μ h1)
  | _, _, _, _, _, _, _, .function h1 h2 => .function (mv μ h1) (mv μ h2)
  | _, _, _, _, _, _, _, .expr h1 h2 => .expr (mv μ h1) (mv μ h2)
  | _, _, _, _, _, _, _, .for_ h1 h2 => .for_ (mv μ h1) (mv μ h2)
  | _, _, _, _, _, _, _, .catch_ h1 h2 => .catch_ (mv μ h1) (mv μ h2)
  | _, _, _, _, _, _, _, .endfunction h1 h2 => .endfunction (mv μ h1) (mv μ h2)
  | _, _, _, _, _, _, _, .none h1 => .none (mv μ h1)

instance {cx r0 ra ea c r r'} : Mv μ (ArgsDone env fn cx r0 ra ea c r r')
    (ArgsDone env' fn cx (μ.tr r0) (μ.tr ra) (ea.onPos μ.κ.m) c (μ.tr r) (μ.tr r')) := ⟨mvArgsDone μ⟩

/-! ### Lines -/

theorem lineErr_mv (μ : Mover env env' fn) {nv : Bool} {cx : Ctx} {b : Option Inner} {used usedX : List Str} {m : Str}
    {q : Pos} (hu : Names used usedX) (h : LineErr nv env fn cx b used r m q) :
    LineErr nv env' fn cx b usedX (μ.tr r) m (μ.mp q) := by
  cases h with
  | head h => exact .head (headErr_mv μ hu h)
  | place h1 h2 =>
    obtain ⟨x, _, h3⟩ := headAt_mv μ hu h1
    rw [← Mover.posOf]
    exact .place h3 h2
  | args h1 h2 h3 =>
    obtain ⟨x, _, h4⟩ := headAt_mv μ hu h1
    exact .args h4 h2 (mv μ h3)
  | trail h1 h2 h3 h5 =>
    obtain ⟨x, _, h4⟩ := headAt_mv μ hu h1
    exact .trail h4 h2 (mv μ h3) (mv μ h5)

theorem lineNum_mv (μ : Mover env env' fn) {nv : Bool} {used usedX : List Str} (hu : Names used usedX)
    (h : LineNum nv env fn used r) : LineNum nv env' fn usedX (μ.tr r) := by
  cases h with
  | mods h1 h2 h3 h4 h5 h6 => exact .mods (mv μ h1) (mv μ h2) (mv μ h3) (mv μ h4) (mv μ h5) h6
  | depth h1 h2 h3 h4 h5 =>
    obtain ⟨x, _, h6⟩ := headAt_mv μ hu h1
    exact .depth h6 h2 (mv μ h3) (mv μ h4) h5

end Viml
