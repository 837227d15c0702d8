/-
The start of a command, the text of raw commands and following lines are carried over to another
place.
-/
import Verif.Lemmas.CarryExpr

namespace Viml
open Spec

namespace Carry
variable {env env' : Env} {fn : Str} {κ : Carry env env' fn} {r r' : List Cell}

/-! ### Patterns and line ranges -/

theorem pat {d : Char} {n : Int} {p e : Str} (hp : Pat d n r p e r') :
    κ.In r → κ.In r' ∧ Pat d n (κ.tr r) p e (κ.tr r') := by
  induction hp with
  | eol h1 => exact fun h => ⟨h, .eol ((atEnd h).2 h1)⟩
  | close h1 =>
    intro h
    obtain ⟨i, a⟩ := reads h h1
    exact ⟨i, .close a⟩
  | esc h1 h2 _ ih =>
    intro h
    obtain ⟨i, a⟩ := reads h h1
    obtain ⟨i2, a2⟩ := ih i
    exact ⟨i2, .esc a h2 a2⟩
  | char h1 h2 h3 _ ih =>
    intro h
    obtain ⟨i, a⟩ := reads h h1
    obtain ⟨i2, a2⟩ := ih i
    exact ⟨i2, .char a h2 h3 a2⟩

theorem offsets {ts : List Str} (ho : Offsets r ts r') : κ.In r → κ.In r' ∧ Offsets (κ.tr r) ts (κ.tr r') := by
  induction ho with
  | nil h1 h2 =>
    intro h
    obtain ⟨i, a⟩ := skip h h1
    exact ⟨i, .nil a (by rw [head i]; exact h2)⟩
  | num h1 h2 h3 _ ih =>
    intro h
    obtain ⟨i, a⟩ := skip h h1
    obtain ⟨i2, a2⟩ := span i h3
    obtain ⟨i3, a3⟩ := ih i2
    exact ⟨i3, .num a h2 a2 a3⟩
  | sign h1 h2 h3 h4 _ ih =>
    intro h
    obtain ⟨i, a⟩ := skip h h1
    obtain ⟨i2, a2⟩ := reads i h3
    obtain ⟨i3, a3⟩ := span i2 h4
    obtain ⟨i4, a4⟩ := ih i3
    exact ⟨i4, .sign a h2 a2 a3 a4⟩

theorem address {ts : List Str} (h : κ.In r) (ha : Address r ts r') : κ.In r' ∧ Address (κ.tr r) ts (κ.tr r') := by
  cases ha with
  | dot h1 h2 =>
    obtain ⟨i, a⟩ := reads h h2
    exact ⟨i, .dot h1 a⟩
  | mark h2 =>
    obtain ⟨i, a⟩ := reads h h2
    exact ⟨i, .mark a⟩
  | pat h1 h2 h3 =>
    obtain ⟨i, a⟩ := reads h h2
    obtain ⟨i2, a2⟩ := Carry.pat h3 i
    exact ⟨i2, .pat h1 a a2⟩
  | prev h1 h2 =>
    obtain ⟨i, a⟩ := reads h h2
    exact ⟨i, .prev h1 a⟩
  | num h1 h2 =>
    obtain ⟨i, a⟩ := span h h2
    exact ⟨i, .num h1 a⟩
  | none h1 => exact ⟨h, .none (by rw [head h]; exact h1)⟩

theorem addresses {ts : List Str} (ho : Addresses r ts r') : κ.In r → κ.In r' ∧ Addresses (κ.tr r) ts (κ.tr r') := by
  induction ho with
  | eol h1 h2 =>
    intro h
    obtain ⟨i, a⟩ := skip h h1
    exact ⟨i, .eol a ((atEnd i).2 h2)⟩
  | quote h1 h2 h3 =>
    intro h
    obtain ⟨i, a⟩ := skip h h1
    obtain ⟨i2, a2⟩ := reads i h2
    exact ⟨i2, .quote a a2 ((atEnd i2).2 h3)⟩
  | one h1 h2 h3 h4 h5 h6 =>
    intro h
    obtain ⟨i, a⟩ := skip h h1
    obtain ⟨i2, a2⟩ := address i h3
    obtain ⟨i3, a3⟩ := offsets h4 i2
    exact ⟨i3, .one a (by rw [atEnd i]; exact h2) a2 a3 (by rw [head i3]; exact h5) (by rw [head i3]; exact h6)⟩
  | more h1 h2 h3 h4 h5 _ ih =>
    intro h
    obtain ⟨i, a⟩ := skip h h1
    obtain ⟨i2, a2⟩ := address i h3
    obtain ⟨i3, a3⟩ := offsets h4 i2
    obtain ⟨i4, a4⟩ := ih i3
    exact ⟨i4, .more a (by rw [atEnd i]; exact h2) a2 a3 (by rw [head i3]; exact h5) a4⟩

theorem wholeFile {ts : List Str} (h : κ.In r) (hw : WholeFile r ts r') : κ.In r' ∧ WholeFile (κ.tr r) ts (κ.tr r') := by
  cases hw with
  | yes h1 h2 =>
    obtain ⟨i, a⟩ := reads h h2
    exact ⟨i, .yes h1 a⟩
  | no h1 h2 => exact ⟨h, .no (by rw [head h]; exact h1) (by rw [head h]; exact h2)⟩

theorem range {ts : List Str} (ho : Range r ts r') : κ.In r → κ.In r' ∧ Range (κ.tr r) ts (κ.tr r') := by
  induction ho with
  | last h1 h2 h3 h4 =>
    intro h
    obtain ⟨i, a⟩ := addresses h1 h
    obtain ⟨i2, a2⟩ := wholeFile i h2
    exact ⟨i2, .last a a2 (by rw [head i2]; exact h3) (by rw [head i2]; exact h4)⟩
  | more h1 h2 h3 h4 _ ih =>
    intro h
    obtain ⟨i, a⟩ := addresses h1 h
    obtain ⟨i2, a2⟩ := wholeFile i h2
    obtain ⟨i3, a3⟩ := reads i2 h4
    obtain ⟨i4, a4⟩ := ih i3
    exact ⟨i4, .more a a2 h3 a3 a4⟩

/-! ### Modifiers -/

theorem modAt {m : Modifier} (h : κ.In r) (hm : ModAt r m r') : κ.In r' ∧ ModAt (κ.tr r) m (κ.tr r') := by
  cases hm with
  | mk h1 h2 h3 h4 h5 h6 h7 h8 h9 h10 h11 h12 h13 h14 h15 h16 =>
    obtain ⟨i1, a1⟩ := reads h h1
    obtain ⟨i2, a2⟩ := reads i1 h5
    obtain ⟨i3, a3⟩ := reads i2 h11
    obtain ⟨i4, a4⟩ := reads i3 h14
    refine ⟨i4, .mk a1 h2 h3 h4 a2 h6 (by rw [head i2]; exact h7) h8 h9 h10 a3 h12 (by rw [head i3]; exact h13) a4 ?_ h16⟩
    rw [head i2]
    exact h15

theorem modAt_back {m : Modifier} {t : List Cell} (h : κ.In r) (hm : ModAt (κ.tr r) m t) :
    ∃ r', ModAt r m r' ∧ κ.In r' ∧ t = κ.tr r' := by
  cases hm with
  | mk h1 h2 h3 h4 h5 h6 h7 h8 h9 h10 h11 h12 h13 h14 h15 h16 =>
    obtain ⟨r1, a1, i1, rfl⟩ := reads_back h h1
    obtain ⟨r2, a2, i2, rfl⟩ := reads_back i1 h5
    obtain ⟨r3, a3, i3, rfl⟩ := reads_back i2 h11
    obtain ⟨r4, a4, i4, rfl⟩ := reads_back i3 h14
    rw [head i2] at h15
    exact ⟨r4, .mk a1 h2 h3 h4 a2 h6 (by rw [← head i2]; exact h7) h8 h9 h10 a3 h12 (by rw [← head i3]; exact h13) a4 h15 h16,
      i4, rfl⟩

/-- A place is determined by the place it is carried to. -/
theorem tr_inj {a b : List Cell} (ha : κ.To a) (hb : κ.To b) (hs : a <:+ r) (hs' : b <:+ r) (h : κ.tr a = κ.tr b) : a = b := by
  have h1 := tr_length ha
  have h2 := tr_length hb
  rw [h] at h1
  exact (List.suffix_of_suffix_length_le hs hs' (by omega)).eq_of_length (by omega)

theorem modAt_suf {m : Modifier} (hm : ModAt r m r') : r' <:+ r := by
  have key : ∀ {a b : List Cell} {v : Str}, Reads a v b → b <:+ a := fun ⟨p, h, _⟩ => ⟨p, h.symm⟩
  cases hm with
  | mk h1 h2 h3 h4 h5 h6 h7 h8 h9 h10 h11 h12 h13 h14 h15 h16 =>
    exact (((key h14).trans (key h11)).trans (key h5)).trans (key h1)

theorem bareHide (h : κ.In r) (i : κ.In r') (hs : r' <:+ r) : BareHide (κ.tr r) (κ.tr r') ↔ BareHide r r' := by
  constructor
  · rintro ⟨h1, h2, v, c, h3, h4⟩
    obtain ⟨x, a1, i1, e⟩ := modAt_back h h1
    have e1 := tr_inj i.to i1.to hs (modAt_suf a1) e
    subst e1
    obtain ⟨y, b1, i2, e⟩ := reads_back h h3
    have e2 := tr_inj i.to i2.to hs (by obtain ⟨p, h, _⟩ := b1; exact ⟨p, h.symm⟩) e
    subst e2
    exact ⟨a1, (atStop i).1 h2, v, c, b1, h4⟩
  · rintro ⟨h1, h2, v, c, h3, h4⟩
    exact ⟨(modAt h h1).2, (atStop i).2 h2, v, c, (reads h h3).2, h4⟩

theorem mods {ms : List Modifier} (hm : Mods r ms r') : κ.In r → κ.In r' ∧ Mods (κ.tr r) ms (κ.tr r') := by
  induction hm with
  | nil h1 =>
    intro h
    refine ⟨h, .nil fun m t ht => ?_⟩
    obtain ⟨x, a, _⟩ := modAt_back h ht
    exact h1 m x a
  | hide h1 =>
    intro h
    have i := (modAt h h1.1).1
    exact ⟨i, .hide ((bareHide h i (modAt_suf h1.1)).2 h1)⟩
  | cons h1 h2 _ ih =>
    intro h
    obtain ⟨i, a⟩ := modAt h h1
    obtain ⟨i2, a2⟩ := ih i
    exact ⟨i2, .cons a (by rw [bareHide h i (modAt_suf h1)]; exact h2) a2⟩

theorem before {r0 rc : List Cell} {ms : List Modifier} {rg : List Str} (h : κ.In r) (hb : Before r r0 ms rg rc) :
    κ.In r0 ∧ κ.In rc ∧ Before (κ.tr r) (κ.tr r0) ms rg (κ.tr rc) := by
  obtain ⟨h1, h2, h3, h4, r1, r2, h5, h6, h7, h8⟩ := hb
  obtain ⟨i0, a0⟩ := skipC h h2
  obtain ⟨i1, a1⟩ := mods h5 i0
  obtain ⟨i2, a2⟩ := range h7 i1
  obtain ⟨i3, a3⟩ := skipC i2 h8
  exact ⟨i0, i3, by rw [starts h]; exact h1, a0, by rw [atEnd i0]; exact h3, by rw [head i0]; exact h4, _, _, a1, h6, a2, a3⟩

/-! ### Options -/

theorem bang {c : Cmd} {b : Bool} (h : κ.In r) (hb : Bang c r b r') : κ.In r' ∧ Bang c (κ.tr r) b (κ.tr r') := by
  cases hb with
  | yes h1 h2 h3 =>
    obtain ⟨i, a⟩ := reads h h1
    exact ⟨i, .yes a h2 h3⟩
  | no h1 => exact ⟨h, .no (by rw [head h]; exact h1)⟩

theorem wordAt {w : Str} (h : κ.In r) (hw : WordAt r w r') : κ.In r' ∧ WordAt (κ.tr r) w (κ.tr r') := by
  obtain ⟨i, a⟩ := reads h hw.1
  exact ⟨i, a, by rw [head i]; exact hw.2⟩

theorem argOpt {ea ea' : Ast.ExArg} (h : κ.In r) (ha : ArgOpt ea r ea' r') :
    κ.In r' ∧ ArgOpt (ea.onPos κ.m) (κ.tr r) (ea'.onPos κ.m) (κ.tr r') := by
  cases ha with
  | bin h1 => obtain ⟨i, a⟩ := wordAt h h1; exact ⟨i, .bin a⟩
  | nobin h1 => obtain ⟨i, a⟩ := wordAt h h1; exact ⟨i, .nobin a⟩
  | edit h1 => obtain ⟨i, a⟩ := wordAt h h1; exact ⟨i, .edit a⟩
  | ff h1 h2 h3 => obtain ⟨i, a⟩ := wordAt h h3; exact ⟨i, .ff h1 h2 a⟩
  | enc h1 h2 h3 h4 h5 =>
    obtain ⟨i, a⟩ := reads h h2
    obtain ⟨i2, a2⟩ := span i h5
    exact ⟨i2, .enc h1 a (by rw [atEnd i]; exact h3) (by rw [head i]; exact h4) a2⟩
  | bad h1 h2 => obtain ⟨i, a⟩ := wordAt h h2; exact ⟨i, .bad h1 a⟩
  | badChar h1 h2 =>
    obtain ⟨i, a⟩ := reads h h1
    exact ⟨i, .badChar a (by rw [head i]; exact h2)⟩

theorem argOpts {ea ea' : Ast.ExArg} (ha : ArgOpts ea r ea' r') :
    κ.In r → κ.In r' ∧ ArgOpts (ea.onPos κ.m) (κ.tr r) (ea'.onPos κ.m) (κ.tr r') := by
  induction ha with
  | nil h1 => exact fun h => ⟨h, .nil (by rw [starts h]; exact h1)⟩
  | cons h1 h2 _ ih =>
    intro h
    obtain ⟨i, a⟩ := argOpt h h1
    obtain ⟨i2, a2⟩ := skip i h2
    obtain ⟨i3, a3⟩ := ih i2
    exact ⟨i3, .cons a a2 a3⟩

theorem writeOpt {c : Cmd} {ea ea' : Ast.ExArg} (h : κ.In r) (ha : WriteOpt c ea r ea' r') :
    κ.In r' ∧ WriteOpt c (ea.onPos κ.m) (κ.tr r) (ea'.onPos κ.m) (κ.tr r') := by
  cases ha with
  | append h1 h2 h3 =>
    obtain ⟨i, a⟩ := reads h h2
    obtain ⟨i2, a2⟩ := skip i h3
    exact ⟨i2, .append h1 a a2⟩
  | filter h1 h2 => obtain ⟨i, a⟩ := reads h h2; exact ⟨i, .filter h1 a⟩
  | none h1 h2 => exact ⟨h, .none (by rw [head h]; exact h1) (by rw [head h]; exact h2)⟩

theorem readOpt {c : Cmd} {ea ea' : Ast.ExArg} (h : κ.In r) (ha : ReadOpt c ea r ea' r') :
    κ.In r' ∧ ReadOpt c (ea.onPos κ.m) (κ.tr r) (ea'.onPos κ.m) (κ.tr r') := by
  cases ha with
  | bang h1 h2 => exact ⟨h, .bang h1 h2⟩
  | filter h1 h2 h3 => obtain ⟨i, a⟩ := reads h h3; exact ⟨i, .filter h1 h2 a⟩
  | none h1 => exact ⟨h, .none (by rw [head h]; exact h1)⟩

theorem shiftOpt {c : Cmd} {ea ea' : Ast.ExArg} (h : κ.In r) (ha : ShiftOpt c ea r ea' r') :
    κ.In r' ∧ ShiftOpt c (ea.onPos κ.m) (κ.tr r) (ea'.onPos κ.m) (κ.tr r') := by
  cases ha with
  | shift h1 h2 h3 h4 =>
    obtain ⟨i, a⟩ := span h h3
    obtain ⟨i2, a2⟩ := skip i h4
    exact ⟨i2, .shift h1 h2 a a2⟩
  | none h1 h2 => exact ⟨h, .none h1 h2⟩

theorem cmdArg {v : Str} (ha : CmdArg r v r') : κ.In r → κ.In r' ∧ CmdArg (κ.tr r) v (κ.tr r') := by
  induction ha with
  | stop h1 => exact fun h => ⟨h, .stop (by rw [atEnd h, head h]; exact h1)⟩
  | esc h1 _ ih =>
    intro h
    obtain ⟨i, a⟩ := reads h h1
    obtain ⟨i2, a2⟩ := ih i
    exact ⟨i2, .esc a a2⟩
  | escEnd h1 h2 =>
    intro h
    obtain ⟨i, a⟩ := reads h h1
    exact ⟨i, .escEnd a ((atEnd i).2 h2)⟩
  | char h1 h2 h3 _ ih =>
    intro h
    obtain ⟨i, a⟩ := reads h h1
    obtain ⟨i2, a2⟩ := ih i
    exact ⟨i2, .char a h2 h3 a2⟩

theorem plusCmd {ea ea' : Ast.ExArg} (h : κ.In r) (ha : PlusCmd ea r ea' r') :
    κ.In r' ∧ PlusCmd (ea.onPos κ.m) (κ.tr r) (ea'.onPos κ.m) (κ.tr r') := by
  cases ha with
  | last h1 h2 =>
    obtain ⟨i, a⟩ := reads h h1
    exact ⟨i, .last a (by rw [head i]; exact h2)⟩
  | cmd h1 h2 h3 =>
    obtain ⟨i, a⟩ := reads h h1
    obtain ⟨i2, a2⟩ := cmdArg h3 i
    exact ⟨i2, .cmd a (by rw [head i]; exact h2) a2⟩
  | none h1 => exact ⟨h, .none (by rw [head h]; exact h1)⟩

theorem options {c : Cmd} {ea ea' : Ast.ExArg} (h : κ.In r) (ha : Options c ea r ea' r') :
    κ.In r' ∧ Options c (ea.onPos κ.m) (κ.tr r) (ea'.onPos κ.m) (κ.tr r') := by
  obtain ⟨e1, r1, e2, r2, e3, r3, e4, r4, h1, h2, h3, h4, h5⟩ := ha
  have k1 : κ.In r1 ∧ (.ARGOPT ∈ c.flags ∧ ArgOpts (ea.onPos κ.m) (κ.tr r) (e1.onPos κ.m) (κ.tr r1) ∨
      .ARGOPT ∉ c.flags ∧ e1.onPos κ.m = ea.onPos κ.m ∧ κ.tr r1 = κ.tr r) := by
    rcases h1 with ⟨h1, h6⟩ | ⟨h1, rfl, rfl⟩
    · obtain ⟨i, a⟩ := argOpts h6 h
      exact ⟨i, .inl ⟨h1, a⟩⟩
    · exact ⟨h, .inr ⟨h1, rfl, rfl⟩⟩
  obtain ⟨i1, a1⟩ := k1
  obtain ⟨i2, a2⟩ := writeOpt i1 h2
  obtain ⟨i3, a3⟩ := readOpt i2 h3
  obtain ⟨i4, a4⟩ := shiftOpt i3 h4
  have k5 : κ.In r' ∧ ((.EDITCMD ∈ c.flags ∧ (e4.onPos κ.m).usefilter = false) ∧
      PlusCmd (e4.onPos κ.m) (κ.tr r4) (ea'.onPos κ.m) (κ.tr r') ∨
      ¬ (.EDITCMD ∈ c.flags ∧ (e4.onPos κ.m).usefilter = false) ∧ ea'.onPos κ.m = e4.onPos κ.m ∧ κ.tr r' = κ.tr r4) := by
    rcases h5 with ⟨h5, h6⟩ | ⟨h5, rfl, rfl⟩
    · obtain ⟨i, a⟩ := plusCmd i4 h6
      exact ⟨i, .inl ⟨h5, a⟩⟩
    · exact ⟨i4, .inr ⟨h5, rfl, rfl⟩⟩
  exact ⟨k5.1, _, _, _, _, _, _, _, _, a1, a2, a3, a4, k5.2⟩

/-! ### The name of a command -/

/-- The names `usedX` are those of `used` and `U`. -/
def Adds (U used usedX : List Str) : Prop := ∀ x, x ∈ usedX ↔ x ∈ used ∨ x ∈ U

/-- The command is no user command named as one of `U` with something added. -/
def Free (U : List Str) (c : Cmd) : Prop := ∀ a ∈ U, ∀ b, b ≠ [] → c ≠ userCommand (a ++ b)

theorem cmdName {nv : Bool} {U used used' usedX : List Str} {c : Cmd} (h : κ.In r) (hu : Adds U used usedX) (hf : Free U c)
    (hn : CmdName nv used r c r' used') :
    κ.In r' ∧ ∃ usedX', Adds U used' usedX' ∧ CmdName nv usedX (κ.tr r) c (κ.tr r') usedX' := by
  cases hn with
  | table h1 h2 h3 h4 h5 =>
    obtain ⟨i, a⟩ := reads h h5
    exact ⟨i, usedX, hu, .table (lineIs h h1) h2 h3 h4 a⟩
  | user h1 h2 h3 h4 =>
    rename_i a r1 b
    obtain ⟨i, a1⟩ := span h h1
    obtain ⟨i2, a2⟩ := span i h4
    by_cases ha : a ∈ U
    · have hb : b = [] := Classical.byContradiction fun hb => hf a ha b hb rfl
      subst hb
      have e : r' = r1 := h4.1.nil_inv.symm
      subst e
      rw [List.append_nil]
      refine ⟨i2, usedX, fun x => ?_, .again a1 h2 ((hu a).2 (.inr ha))⟩
      rw [hu x, List.mem_cons]
      constructor
      · rintro (h | h)
        · exact .inl (.inr h)
        · exact .inr h
      · rintro ((rfl | h) | h)
        · exact .inr ha
        · exact .inl h
        · exact .inr h
    · refine ⟨i2, _, fun x => ?_, .user a1 h2 (fun hx => ?_) a2⟩
      · rw [List.mem_cons, List.mem_cons, hu x, or_assoc]
      · rcases (hu a).1 hx with hx | hx
        · exact h3 hx
        · exact ha hx
  | again h1 h2 h3 =>
    obtain ⟨i, a1⟩ := span h h1
    exact ⟨i, usedX, hu, .again a1 h2 ((hu _).2 (.inl h3))⟩

theorem cmdHead {nv : Bool} {U used used' usedX : List Str} {r0 ra : List Cell} {ea : Ast.ExArg} {c : Cmd} (h : κ.In r)
    (hu : Adds U used usedX) (hf : Free U c) (hc : CmdHead nv env fn used r r0 ea c ra r' used') :
    κ.In r0 ∧ κ.In ra ∧ κ.In r' ∧ ∃ usedX', Adds U used' usedX' ∧
      CmdHead nv env' fn usedX (κ.tr r) (κ.tr r0) (ea.onPos κ.m) c (κ.tr ra) (κ.tr r') usedX' := by
  obtain ⟨ms, rg, rc, r1, b, r2, h1, h2, h3, h4, h5, h6, h7⟩ := hc
  obtain ⟨i0, ic, a1⟩ := before h h1
  obtain ⟨i1, usedX', hu', a2⟩ := cmdName ic hu hf h4
  obtain ⟨i2, a3⟩ := bang i1 h5
  have k : κ.In ra ∧ (c.name = cs!"!" ∧ κ.tr ra = κ.tr r2 ∨ c.name ≠ cs!"!" ∧ Skip (κ.tr r2) (κ.tr ra)) := by
    rcases h6 with ⟨h6, rfl⟩ | ⟨h6, h8⟩
    · exact ⟨i2, .inl ⟨h6, rfl⟩⟩
    · obtain ⟨i, a⟩ := skip i2 h8
      exact ⟨i, .inr ⟨h6, a⟩⟩
  obtain ⟨i4, a5⟩ := options k.1 h7
  refine ⟨i0, k.1, i4, usedX', hu', ⟨ms, rg, κ.tr rc, _, b, _, a1, by rw [atEnd ic]; exact h2, by rw [head ic]; exact h3, a2, a3,
    k.2, ?_⟩⟩
  rw [Carry.here i0, Carry.here ic, Carry.here k.1]
  exact a5

/-! ### Raw commands -/

theorem grepPat (h : κ.In r) (hg : GrepPat r r') : κ.In r' ∧ GrepPat (κ.tr r) (κ.tr r') := by
  cases hg with
  | none h1 => exact ⟨h, .none ((atEnd h).2 h1)⟩
  | word h1 h2 =>
    obtain ⟨i, a⟩ := span h h2
    exact ⟨i, .word (by rw [head h]; exact h1) a⟩
  | open_ h1 h2 h3 =>
    obtain ⟨i, a⟩ := reads h h2
    obtain ⟨i2, a2⟩ := Carry.pat h3 i
    exact ⟨i2, .open_ h1 a a2⟩
  | pat h1 h2 h3 h4 =>
    obtain ⟨i, a⟩ := reads h h2
    obtain ⟨i2, a2⟩ := Carry.pat h3 i
    obtain ⟨i3, a3⟩ := span i2 h4
    exact ⟨i3, .pat h1 a a2 a3⟩

theorem endsRaw {c : Cmd} {ra : List Cell} {pc : Option Char} (h : κ.In r) (ha : κ.In ra) :
    EndsRaw c (κ.tr ra) pc (κ.tr r) ↔ EndsRaw c ra pc r := by
  unfold EndsRaw
  have e : (κ.tr ra).length = (κ.tr r).length + 1 ↔ ra.length = r.length + 1 := by
    have h1 := tr_length h.to
    have h2 := tr_length ha.to
    omega
  rw [head h, e]

theorem trimmed_ {pc : Option Char} {t : List Cell} (h : κ.In r) (ht : κ.In t) :
    κ.In (trimmed pc t r) ∧ trimmed pc (κ.tr t) (κ.tr r) = κ.tr (trimmed pc t r) := by
  unfold trimmed
  split
  · exact ⟨ht, rfl⟩
  · exact ⟨h, rfl⟩

theorem rawRun {c : Cmd} {ra : List Cell} {pc : Option Char} {t t' e : List Cell} (ha : κ.In ra)
    (hr : RawRun env fn c ra pc t r t' e) : κ.In t → κ.In r →
    κ.In t' ∧ κ.In e ∧ RawRun env' fn c (κ.tr ra) pc (κ.tr t) (κ.tr r) (κ.tr t') (κ.tr e) := by
  induction hr with
  | eol h1 =>
    intro ht h
    obtain ⟨i, e⟩ := trimmed_ (pc := _) h ht
    exact ⟨i, h, e ▸ .eol ((atEnd h).2 h1)⟩
  | stop h1 h2 =>
    intro ht h
    obtain ⟨i, e⟩ := trimmed_ (pc := _) h ht
    exact ⟨i, h, e ▸ .stop ((endsRaw h ha).2 h1) h2⟩
  | ctrlV h1 h2 _ ih =>
    intro ht h
    obtain ⟨i, a⟩ := reads h h1
    obtain ⟨i2, a2⟩ := reads i h2
    obtain ⟨i3, i4, a3⟩ := ih i i2
    exact ⟨i3, i4, .ctrlV a a2 a3⟩
  | ctrlVEnd h1 h2 =>
    intro ht h
    obtain ⟨i, a⟩ := reads h h1
    exact ⟨i, i, .ctrlVEnd a ((atEnd i).2 h2)⟩
  | expr h1 h2 h3 h4 _ ih =>
    intro ht h
    obtain ⟨i, a⟩ := reads h h2
    obtain ⟨i2, a2⟩ := gram h3 i
    obtain ⟨i3, a3⟩ := reads i2 h4
    obtain ⟨it, et⟩ := trimmed_ (pc := _) h ht
    obtain ⟨i4, i5, a4⟩ := ih it i3
    exact ⟨i4, i5, .expr h1 a a2 a3 (et.symm ▸ a4)⟩
  | char h1 h2 h3 h4 _ ih =>
    intro ht h
    obtain ⟨i, a⟩ := reads h h1
    obtain ⟨it, et⟩ := trimmed_ (pc := _) h ht
    obtain ⟨i4, i5, a4⟩ := ih it i
    exact ⟨i4, i5, .char a h2 (by rw [starts h]; exact h3) (by rw [endsRaw h ha]; exact h4) (et.symm ▸ a4)⟩

theorem rawText {c : Cmd} {f : Bool} {r0 ra : List Cell} {s : Str} (h0 : κ.In r0) (ha : κ.In ra) (h : κ.In r)
    (hr : RawText env fn c f r0 ra r s r') : κ.In r' ∧ RawText env' fn c f (κ.tr r0) (κ.tr ra) (κ.tr r) s (κ.tr r') := by
  cases hr with
  | bar h1 h2 h3 h4 h5 h6 =>
    rename_i r1 t
    have k : κ.In r1 ∧ (c.name ∈ grepCmds → GrepPat (κ.tr r) (κ.tr r1)) ∧ (c.name ∉ grepCmds → κ.tr r1 = κ.tr r) := by
      by_cases hg : c.name ∈ grepCmds
      · obtain ⟨i, a⟩ := grepPat h (h3 hg)
        exact ⟨i, fun _ => a, fun h => absurd hg h⟩
      · have := h4 hg
        subst this
        exact ⟨h, fun h => absurd h hg, fun _ => rfl⟩
    obtain ⟨i1, k1, k2⟩ := k
    obtain ⟨it, i2, a⟩ := rawRun ha h5 i1 i1
    refine ⟨i2, .bar h1 h2 k1 k2 a ?_⟩
    have := (reads h0 h6).2
    split at this <;> rename_i hh
    · rw [if_pos hh]; exact this
    · rw [if_neg hh]; exact this
  | line h1 h2 h3 =>
    obtain ⟨i, a⟩ := rest h h2
    exact ⟨i, .line h1 a (reads h0 h3).2⟩

theorem winArg (h : κ.In r) (hw : WinArg r r') : κ.In r' ∧ WinArg (κ.tr r) (κ.tr r') := by
  cases hw with
  | one h1 h2 h3 => obtain ⟨i, a⟩ := reads h h1; exact ⟨i, .one a h2 h3⟩
  | two h1 h2 h3 => obtain ⟨i, a⟩ := reads h h1; exact ⟨i, .two a h2 h3⟩

theorem drop_ (h : κ.In r) (hw : Drop r r') : κ.In r' ∧ Drop (κ.tr r) (κ.tr r') := by
  cases hw with
  | one h1 => obtain ⟨i, a⟩ := reads h h1; exact ⟨i, .one a⟩
  | eol h1 => exact ⟨h, .eol ((atEnd h).2 h1)⟩

theorem synText (hs : SynText r r') : κ.In r → κ.In r' ∧ SynText (κ.tr r) (κ.tr r') := by
  induction hs with
  | stop h1 => exact fun h => ⟨h, .stop (by rw [atEnd h, head h]; exact h1)⟩
  | pat h1 h2 h3 h4 _ ih =>
    intro h
    obtain ⟨i, a⟩ := reads h h2
    obtain ⟨i2, a2⟩ := Carry.pat h3 i
    obtain ⟨i3, a3⟩ := drop_ i2 h4
    obtain ⟨i4, a4⟩ := ih i3
    exact ⟨i4, .pat h1 a a2 a3 a4⟩
  | eq h2 h3 h4 _ ih =>
    intro h
    obtain ⟨i, a⟩ := reads h h2
    obtain ⟨i2, a2⟩ := Carry.pat h3 i
    obtain ⟨i3, a3⟩ := drop_ i2 h4
    obtain ⟨i4, a4⟩ := ih i3
    exact ⟨i4, .eq a a2 a3 a4⟩
  | char h1 h2 _ ih =>
    intro h
    obtain ⟨i, a⟩ := reads h h1
    obtain ⟨i4, a4⟩ := ih i
    exact ⟨i4, .char a h2 a4⟩

end Carry

end Viml
