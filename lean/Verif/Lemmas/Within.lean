/-
Open blocks inside open blocks: lines that end between statements can be carried behind other such lines (`OpenIn.within`).
-/
import Verif.Lemmas.Mid
import Verif.Lemmas.Nest

namespace Viml
open Spec

variable {nv : Bool} {env' : Env} {fn : Str} {cx cx0 : Ctx} {b b0 : Option Inner} {used used' used0 : List Str} {r r' : List Cell}
  {st st0 : List Str} {A B W lines : List Str} {κ : Carry (mkEnv lines) env' fn}

local notation "E" => mkEnv lines

theorem carry_up (ne : κ.q0 ≠ []) (t : κ.To r) : κ.Up r := t.imp id fun h => ⟨h, h ▸ ne⟩

theorem carry_ne (ne : κ.q0 ≠ []) (t : κ.To r) : r ≠ [] := by
  rcases t with t | rfl
  · rintro rfl; cases t with | eof h => exact ne (κ.eof h).1
  · exact ne

theorem carry_opens {α : Type} {n : Str} {F : List Cell → α → List Cell → Prop} {ea a cm} (ne : κ.q0 ≠ []) (t0 : κ.To (E).buf)
    (hs : r <:+ (E).buf) (hF : ∀ {r a r'}, F r a r' → r' <:+ r) (t' : κ.To r') (h : Spec.Opens nv E fn n F used r ea a cm used' r') :
    κ.In r := by
  have t : κ.To r := t0.upto hs t' (opens_suf hF h)
  obtain ⟨r0, c, ra, r1, r2, _, h1, h2, h3⟩ := h
  obtain ⟨a1, a2, a3⟩ := head_track h1
  exact t.line List.suffix_rfl (carry_up ne t') ((Carry.trail_len h3).imp
    (fun h => Nat.lt_of_lt_of_le h (((hF h2).trans a2.suffix).trans a3.suffix).length_le) id)

theorem or_like (h : ifLike b ∨ tryLike b) : b.or b0 = b := by
  rcases h with (rfl | rfl) | (rfl | rfl) <;> rfl

/-- The lines up to `r`, carried behind lines with open blocks. -/
theorem openFront_within (ne : κ.q0 ≠ []) (t0 : κ.To (E).buf)
    (hA : OpenFront nv env' fn cx0 b0 used0 (κ.tr (E).buf) st0) (h : OpenFront nv E fn cx b used r st) :
    κ.To r → ∃ cx' usedX, (∀ q, q ≠ [] → Wider cx cx' q) ∧ OpenFront nv env' fn cx' (b.or b0) usedX (κ.tr r) (st ++ st0) := by
  have nn : ∀ a ∈ ([] : List Str), Upper a := fun _ h => by cases h
  induction h with
  | start =>
    refine fun _ => ⟨cx0, used0, fun q hq => ⟨fun h => (by cases h), fun h => (by cases h), ?_⟩, hA⟩
    cases e : cx0.top with
    | true => exact .inl rfl
    | false => exact .inr ⟨rfl, hq⟩
  | lines h0 h1 ih =>
    intro t'
    have t := t0.upto (front_suffix h0.front) t' (body_order h1).suffix
    obtain ⟨c, x, w, ih⟩ := ih t
    have h1 := body_cx h1 (w _ (carry_ne ne t'))
    obtain ⟨_, _, h2⟩ := Carry.body nn h1 t (carry_up ne t') (fun _ _ _ h => by cases h) (Carry.adds_nil _)
    obtain ⟨_, y, h2⟩ := body_any h2 x
    exact ⟨c, y, w, .lines ih h2⟩
  | function h0 h1 ih =>
    intro t
    have i := carry_opens ne t0 (front_suffix h0.front) (fun h => (funcHead_track h).1.suffix) t h1
    obtain ⟨c, x, w, ih⟩ := ih i.to
    exact ⟨_, x, fun q hq => (w q hq).inFun, .function ih (opens_any (by decide) (Carry.opens nn (by low) Carry.argFunc i h1 (Carry.adds_nil _)).2.choose_spec.2 x)⟩
  | while_ h0 h1 ih =>
    intro t
    have i := carry_opens ne t0 (front_suffix h0.front) leaves_gram t h1
    obtain ⟨c, x, w, ih⟩ := ih i.to
    exact ⟨_, x, fun q hq => (w q hq).inLoop, .while_ ih (opens_any (by decide) (Carry.opens nn (by low) Carry.argGram i h1 (Carry.adds_nil _)).2.choose_spec.2 x)⟩
  | for_ h0 h1 ih =>
    intro t
    have i := carry_opens ne t0 (front_suffix h0.front) Fore.leaves_for t h1
    obtain ⟨c, x, w, ih⟩ := ih i.to
    exact ⟨_, x, fun q hq => (w q hq).inLoop, .for_ ih (opens_any (by decide) (Carry.opens nn (by low) Carry.argFor i h1 (Carry.adds_nil _)).2.choose_spec.2 x)⟩
  | if_ h0 h1 ih =>
    intro t
    have i := carry_opens ne t0 (front_suffix h0.front) leaves_gram t h1
    obtain ⟨c, x, w, ih⟩ := ih i.to
    exact ⟨_, x, fun q hq => (w q hq).inBlock, .if_ ih (opens_any (by decide) (Carry.opens nn (by low) Carry.argGram i h1 (Carry.adds_nil _)).2.choose_spec.2 x)⟩
  | try_ h0 h1 ih =>
    intro t
    have i := carry_opens ne t0 (front_suffix h0.front) leaves_none t h1
    obtain ⟨c, x, w, ih⟩ := ih i.to
    exact ⟨_, x, fun q hq => (w q hq).inBlock, .try_ ih (opens_any (by decide) (Carry.opens nn (by low) Carry.argNone i h1 (Carry.adds_nil _)).2.choose_spec.2 x)⟩
  | elseif h0 hb h1 ih =>
    intro t
    have i := carry_opens ne t0 (front_suffix h0.front) leaves_gram t h1
    obtain ⟨c, x, w, ih⟩ := ih i.to
    rw [or_like (.inl hb)] at ih
    exact ⟨c, x, w, .elseif ih hb (opens_any (by decide) (Carry.opens nn (by low) Carry.argGram i h1 (Carry.adds_nil _)).2.choose_spec.2 x)⟩
  | else_ h0 hb h1 ih =>
    intro t
    have i := carry_opens ne t0 (front_suffix h0.front) leaves_none t h1
    obtain ⟨c, x, w, ih⟩ := ih i.to
    rw [or_like (.inl hb)] at ih
    exact ⟨c, x, w, .else_ ih hb (opens_any (by decide) (Carry.opens nn (by low) Carry.argNone i h1 (Carry.adds_nil _)).2.choose_spec.2 x)⟩
  | catch_ h0 hb h1 ih =>
    intro t
    have i := carry_opens ne t0 (front_suffix h0.front) leaves_catch t h1
    obtain ⟨c, x, w, ih⟩ := ih i.to
    rw [or_like (.inr hb)] at ih
    exact ⟨c, x, w, .catch_ ih hb (opens_any (by decide) (Carry.opens nn (by low) Carry.argCatch i h1 (Carry.adds_nil _)).2.choose_spec.2 x)⟩
  | finally_ h0 hb h1 ih =>
    intro t
    have i := carry_opens ne t0 (front_suffix h0.front) leaves_none t h1
    obtain ⟨c, x, w, ih⟩ := ih i.to
    rw [or_like (.inr hb)] at ih
    exact ⟨c, x, w, .finally_ ih hb (opens_any (by decide) (Carry.opens nn (by low) Carry.argNone i h1 (Carry.adds_nil _)).2.choose_spec.2 x)⟩

/-- The blocks open behind `W` are open behind `A ++ W` inside of those open behind `A`. -/
theorem OpenIn.within (hA : OpenIn nv fn A b0 st0) (hW : OpenIn nv fn W b st)
    (hc : ∀ l, W.head? = some l → afterBackslash l = none) : OpenIn nv fn (A ++ W) (b.or b0) (st ++ st0) := by
  intro B hB
  obtain ⟨cx0, used0, hA⟩ := hA (W ++ B) (by
    intro y hy
    cases W with
    | nil => exact hB y hy
    | cons l W => exact hc y hy)
  rw [restB_append hc hB, ← List.append_assoc] at hA
  obtain ⟨cx, used, hW⟩ := hW [commentLine] (by rintro _ ⟨⟩; decide +kernel)
  have e1 : (carryW fn A W (restB (A ++ W) B) (mkEnv (A ++ W ++ B))).tr (mkEnv (W ++ [commentLine])).buf =
      (mkEnv W).buf.map (moveCell A W (mkEnv A).buf.length) ++ restB (A ++ W) B := by
    rw [mkEnv_comment]
    simp [Carry.tr, carryW]
  have e2 : restB W [commentLine] = commentCells W := by
    have h1 := mkEnv_append (A := W) (B := [commentLine]) (by rintro _ ⟨⟩; decide +kernel)
    rw [mkEnv_comment] at h1
    exact (List.append_cancel_left h1).symm
  rw [e2] at hW
  obtain ⟨cx', x, _, h⟩ := openFront_within (κ := carryW fn A W (restB (A ++ W) B) (mkEnv (A ++ W ++ B)))
    (by simp [carryW, commentCells]) (carryW_to ..) (e1 ▸ hA) hW (.inr rfl)
  have e3 : (carryW fn A W (restB (A ++ W) B) (mkEnv (A ++ W ++ B))).tr (commentCells W) = restB (A ++ W) B := Carry.tr_end
  rw [e3] at h
  exact ⟨cx', x, h⟩

end Viml
