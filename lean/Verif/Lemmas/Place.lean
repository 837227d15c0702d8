/-
The places of commands: correct lines lead to each command of a tree.
-/
import Verif.Spec.Place
import Verif.Lemmas.Modify
import Verif.Lemmas.InsertAt
import Verif.Lemmas.BarsAt
import Verif.Props.Name
import Verif.Props.Insert

namespace Viml
open Spec

variable {nv : Bool} {env : Env} {fn : Str} {p : Ast.Pos}

theorem commandAt_append {a b : List Ast.Stmt} (h : CommandAt (a ++ b) p) : CommandAt a p ∨ CommandAt b p := by
  obtain ⟨x, h1, h2⟩ := h
  cases h1 with
  | mem h => exact (List.mem_append.1 h).imp (fun h => ⟨x, .mem h, h2⟩) fun h => ⟨x, .mem h, h2⟩
  | sub h h' => exact (List.mem_append.1 h).imp (fun h => ⟨x, .sub h h', h2⟩) fun h => ⟨x, .sub h h', h2⟩

theorem commandAt_one {s : Ast.Stmt} (h : CommandAt [s] p) : RecordAt s p ∨ CommandAt (subStmts s) p := by
  obtain ⟨x, h1, h2⟩ := h
  cases h1 with
  | mem h => cases List.mem_singleton.1 h; exact .inl h2
  | sub h h' => cases List.mem_singleton.1 h; exact .inr ⟨x, h', h2⟩

theorem commandAt_nil : ¬ CommandAt [] p := by
  rintro ⟨x, h1, h2⟩
  cases h1 with
  | mem h => cases h
  | sub h _ => cases h

theorem commandAt_simple {s : Ast.Stmt} {ea : Ast.ExArg} (hr : recordOf s = some ea) (h : CommandAt [s] p) : ea.linepos = p := by
  rcases commandAt_one h with (⟨e, h1, h2⟩ | ⟨e, h1, h2⟩) | h
  · cases s <;> first | (cases hr; cases h1; exact h2) | (cases hr; done)
  · cases s <;> first | (cases h1; done) | (cases hr; done)
  · cases s <;> first | exact absurd h commandAt_nil | (cases hr; done)

theorem commandAt_comment {q : Ast.Pos} {t : Str} : ¬ CommandAt [.comment q t] p := by
  intro h
  rcases commandAt_one h with (⟨e, h1, h2⟩ | ⟨e, h1, h2⟩) | h
  · cases h1
  · cases h1
  · exact commandAt_nil h

theorem commandAt_trail {r r' : List Cell} {cm} (h : Trail env fn r cm r') : ¬ CommandAt cm p := by
  cases h with
  | comment h1 h2 => cases h2; exact commandAt_comment
  | _ => exact commandAt_nil

/-- Correct lines, and then the line of a command that starts at `p`. -/
def Placed (nv : Bool) (env : Env) (fn : Str) (p : Ast.Pos) : Prop :=
  ∃ cx b used r r0, Front nv env fn cx b used r ∧ SkipC r r0 ∧ ¬ AtEnd r0 ∧ Spec.here env fn r0 = p

variable {cx : Ctx} {b : Option Inner} {used used' : List Str} {r r' : List Cell}

theorem placed_head {r0 ea c ra r1} (hf : Front nv env fn cx b used r) (h : CmdHead nv env fn used r r0 ea c ra r1 used')
    (e : ea.linepos = p) : Placed nv env fn p := by
  obtain ⟨ms, rg, rc, r2, b, r3, h1, _, _, _, _, _, h7⟩ := h
  exact ⟨_, _, _, _, _, hf, h1.2.1, h1.2.2.1, (Options.pos h7).1.symm.trans e⟩

theorem placed_opens {α : Type} {n : Str} {A : List Cell → α → List Cell → Prop} {ea a cm} (hf : Front nv env fn cx b used r)
    (h : Spec.Opens nv env fn n A used r ea a cm used' r') (e : ea.linepos = p) : Placed nv env fn p := by
  obtain ⟨_, _, _, _, _, _, h1, _⟩ := h
  exact placed_head hf h1 e

theorem placed_closes {n e} (hf : Front nv env fn cx b used r) (h : Closes nv env fn n used r e used' r')
    (he : e.ea.linepos = p) : Placed nv env fn p := by
  obtain ⟨_, _, _, _, _, _, h1, rfl, _⟩ := h
  exact placed_head hf h1 he

theorem commandAt_opens {α : Type} {n : Str} {A : List Cell → α → List Cell → Prop} {ea a cm ss}
    (h : Spec.Opens nv env fn n A used r ea a cm used' r') (hc : CommandAt (cm ++ ss) p) : CommandAt ss p := by
  obtain ⟨_, _, _, _, _, _, _, _, h1⟩ := h
  exact (commandAt_append hc).resolve_left (commandAt_trail h1)

theorem place_ifPart {cx b used used' r r' ea ss y eis} : IfPart nv env fn cx used r ea ss y eis used' r' →
    Front nv env fn cx b used r → ∃ b', ifLike b' ∧ Front nv env fn cx.block b' used' r'
  | .if_ h1 h2, hf => ⟨some .if_, by simp [ifLike], .lines (.if_ hf h1) h2⟩
  | .elseif h1 h2 h3, hf => by
    obtain ⟨b', h4, h5⟩ := place_ifPart h1 hf
    exact ⟨some .elseif, by simp [ifLike], .lines (.elseif h5 h4 h2) h3⟩

theorem place_tryPart {cx b used used' r r' ea ss cs} : TryPart nv env fn cx used r ea ss cs used' r' →
    Front nv env fn cx b used r → ∃ b', tryLike b' ∧ Front nv env fn cx.block b' used' r'
  | .try_ h1 h2, hf => ⟨some .try_, by simp [tryLike], .lines (.try_ hf h1) h2⟩
  | .catch_ h1 h2 h3, hf => by
    obtain ⟨b', h4, h5⟩ := place_tryPart h1 hf
    exact ⟨some .catch_, by simp [tryLike], .lines (.catch_ h5 h4 h2) h3⟩

theorem simple_at {r0 ra : List Cell} {ea c xs r1} (h : Spec.Simple env fn cx r0 ra ea c r1 xs r') (hc : CommandAt xs p) :
    ea.linepos = p := by
  cases h with
  | heredoc g1 g2 g3 g4 g5 g6 => exact commandAt_simple rfl ((commandAt_append hc).resolve_left (commandAt_trail g5))
  | _ => exact commandAt_simple rfl hc

mutual

theorem body_place {cx b used r ss used' r'} : Body nv env fn cx used r ss used' r' → Front nv env fn cx b used r →
    CommandAt ss p → Placed nv env fn p
  | .nil, _, hc => absurd hc commandAt_nil
  | .shebang h _ _ _, hf, hc => body_place h hf hc
  | .empty h _ _, hf, hc => body_place h hf hc
  | .comment h _ h3, hf, hc => by
    rcases commandAt_append hc with hc | hc
    · exact body_place h hf hc
    · cases h3; exact absurd hc commandAt_comment
  | .noCommand (ms := ms) (rg := rg) h h1 _ _ h4, hf, hc => by
    rcases commandAt_append hc with hc | hc
    · rcases commandAt_append hc with hc | hc
      · exact body_place h hf hc
      · split at hc
        · exact absurd hc commandAt_nil
        · exact ⟨_, _, _, _, _, .lines hf h, h1.2.1, h1.2.2.1, commandAt_simple rfl hc⟩
    · exact absurd hc (commandAt_trail h4)
  | .simple h h1 h2 h3, hf, hc => by
    rcases commandAt_append hc with hc | hc
    · rcases commandAt_append hc with hc | hc
      · exact body_place h hf hc
      · exact placed_head (.lines hf h) h1 (simple_at h2 hc)
    · exact absurd hc (commandAt_trail h3)
  | .block h h1 h2, hf, hc => by
    rcases commandAt_append hc with hc | hc
    · rcases commandAt_append hc with hc | hc
      · exact body_place h hf hc
      · exact block_place h1 (.lines hf h) hc
    · exact absurd hc (commandAt_trail h2)

theorem block_place {cx b used r s used' r'} : Block nv env fn cx used r s used' r' → Front nv env fn cx b used r →
    CommandAt [s] p → Placed nv env fn p
  | .function h1 h2 h3, hf, hc => by
    rcases commandAt_one hc with (⟨_, ⟨⟩, e⟩ | ⟨_, ⟨⟩, e⟩) | hc
    · exact placed_opens hf h1 e
    · exact placed_closes (.lines (.function hf h1) h2) h3 e
    · exact body_place h2 (.function hf h1) (commandAt_opens h1 hc)
  | .while_ h1 h2 h3, hf, hc => by
    rcases commandAt_one hc with (⟨_, ⟨⟩, e⟩ | ⟨_, ⟨⟩, e⟩) | hc
    · exact placed_opens hf h1 e
    · exact placed_closes (.lines (.while_ hf h1) h2) h3 e
    · exact body_place h2 (.while_ hf h1) (commandAt_opens h1 hc)
  | .for_ h1 h2 h3, hf, hc => by
    rcases commandAt_one hc with (⟨_, ⟨⟩, e⟩ | ⟨_, ⟨⟩, e⟩) | hc
    · exact placed_opens hf h1 e
    · exact placed_closes (.lines (.for_ hf h1) h2) h3 e
    · exact body_place h2 (.for_ hf h1) (commandAt_opens h1 hc)
  | .if_ h1 h2, hf, hc => by
    rcases commandAt_one hc with (⟨_, ⟨⟩, e⟩ | ⟨_, ⟨⟩, e⟩) | hc
    · exact ifPart_place h1 hf (.inl e)
    · obtain ⟨_, _, h3⟩ := place_ifPart h1 hf
      exact placed_closes h3 h2 e
    · simp only [subStmts, Option.toList_none, List.append_nil] at hc
      exact ifPart_place h1 hf (.inr hc)
  | .ifElse h1 h2 h3 h4, hf, hc => by
    obtain ⟨_, hb, h5⟩ := place_ifPart h1 hf
    rcases commandAt_one hc with (⟨_, ⟨⟩, e⟩ | ⟨_, ⟨⟩, e⟩) | hc
    · exact ifPart_place h1 hf (.inl e)
    · exact placed_closes (.lines (.else_ h5 hb h2) h3) h4 e
    · simp only [subStmts, Option.toList_some] at hc
      rcases commandAt_append hc with hc | hc
      · exact ifPart_place h1 hf (.inr hc)
      · rcases commandAt_one hc with (⟨_, ⟨⟩, e⟩ | ⟨_, he, e⟩) | hc
        · exact placed_opens h5 h2 e
        · cases he
        · exact body_place h3 (.else_ h5 hb h2) (commandAt_opens h2 hc)
  | .try_ h1 h2, hf, hc => by
    rcases commandAt_one hc with (⟨_, ⟨⟩, e⟩ | ⟨_, ⟨⟩, e⟩) | hc
    · exact tryPart_place h1 hf (.inl e)
    · obtain ⟨_, _, h3⟩ := place_tryPart h1 hf
      exact placed_closes h3 h2 e
    · simp only [subStmts, Option.toList_none, List.append_nil] at hc
      exact tryPart_place h1 hf (.inr hc)
  | .tryFinally h1 h2 h3 h4, hf, hc => by
    obtain ⟨_, hb, h5⟩ := place_tryPart h1 hf
    rcases commandAt_one hc with (⟨_, ⟨⟩, e⟩ | ⟨_, ⟨⟩, e⟩) | hc
    · exact tryPart_place h1 hf (.inl e)
    · exact placed_closes (.lines (.finally_ h5 hb h2) h3) h4 e
    · simp only [subStmts, Option.toList_some] at hc
      rcases commandAt_append hc with hc | hc
      · exact tryPart_place h1 hf (.inr hc)
      · rcases commandAt_one hc with (⟨_, ⟨⟩, e⟩ | ⟨_, he, e⟩) | hc
        · exact placed_opens h5 h2 e
        · cases he
        · exact body_place h3 (.finally_ h5 hb h2) (commandAt_opens h2 hc)

theorem ifPart_place {cx b used r ea ss y eis used' r'} : IfPart nv env fn cx used r ea ss y eis used' r' →
    Front nv env fn cx b used r → ea.linepos = p ∨ CommandAt (ss ++ eis) p → Placed nv env fn p
  | .if_ h1 h2, hf, hc => by
    rcases hc with e | hc
    · exact placed_opens hf h1 e
    · rw [List.append_nil] at hc
      exact body_place h2 (.if_ hf h1) (commandAt_opens h1 hc)
  | .elseif h1 h2 h3, hf, hc => by
    rcases hc with e | hc
    · exact ifPart_place h1 hf (.inl e)
    · rw [← List.append_assoc] at hc
      obtain ⟨_, hb, h5⟩ := place_ifPart h1 hf
      rcases commandAt_append hc with hc | hc
      · exact ifPart_place h1 hf (.inr hc)
      · rcases commandAt_one hc with (⟨_, ⟨⟩, e⟩ | ⟨_, he, e⟩) | hc
        · exact placed_opens h5 h2 e
        · cases he
        · exact body_place h3 (.elseif h5 hb h2) (commandAt_opens h2 hc)

theorem tryPart_place {cx b used r ea ss cs used' r'} : TryPart nv env fn cx used r ea ss cs used' r' →
    Front nv env fn cx b used r → ea.linepos = p ∨ CommandAt (ss ++ cs) p → Placed nv env fn p
  | .try_ h1 h2, hf, hc => by
    rcases hc with e | hc
    · exact placed_opens hf h1 e
    · rw [List.append_nil] at hc
      exact body_place h2 (.try_ hf h1) (commandAt_opens h1 hc)
  | .catch_ h1 h2 h3, hf, hc => by
    rcases hc with e | hc
    · exact tryPart_place h1 hf (.inl e)
    · rw [← List.append_assoc] at hc
      obtain ⟨_, hb, h5⟩ := place_tryPart h1 hf
      rcases commandAt_append hc with hc | hc
      · exact tryPart_place h1 hf (.inr hc)
      · rcases commandAt_one hc with (⟨_, ⟨⟩, e⟩ | ⟨_, he, e⟩) | hc
        · exact placed_opens h5 h2 e
        · cases he
        · exact body_place h3 (.catch_ h5 hb h2) (commandAt_opens h2 hc)

end

theorem ifPart_head {cx used used' r r' ea ss y eis} : IfPart nv env fn cx used r ea ss y eis used' r' →
    ∃ r0 c ra r1 u, CmdHead nv env fn used r r0 ea c ra r1 u
  | .if_ ⟨_, _, _, _, _, _, h, _⟩ _ => ⟨_, _, _, _, _, h⟩
  | .elseif h _ _ => ifPart_head h

theorem tryPart_head {cx used used' r r' ea ss cs} : TryPart nv env fn cx used r ea ss cs used' r' →
    ∃ r0 c ra r1 u, CmdHead nv env fn used r r0 ea c ra r1 u
  | .try_ ⟨_, _, _, _, _, _, h, _⟩ _ => ⟨_, _, _, _, _, h⟩
  | .catch_ h _ _ => tryPart_head h

theorem block_head {s ea} (h : Block nv env fn cx used r s used' r') (he : exArgOf s = some ea) :
    ∃ r0 c ra r1 u, CmdHead nv env fn used r r0 ea c ra r1 u := by
  cases h with
  | function h | while_ h | for_ h => cases he; obtain ⟨_, _, _, _, _, _, h, _⟩ := h; exact ⟨_, _, _, _, _, h⟩
  | if_ h | ifElse h => cases he; exact ifPart_head h
  | try_ h | tryFinally h => cases he; exact tryPart_head h

theorem commandAt_mem {x : Ast.Stmt} {ss : List Ast.Stmt} (h : x ∈ ss) (hx : ∃ ea, exArgOf x = some ea ∧ ea.linepos = p) :
    CommandAt ss p := ⟨x, .mem h, .inl hx⟩

/-- A command on the top level starts behind a part of the script. -/
theorem body_split {cx used r ss used' r'} {x : Ast.Stmt} (hx : ∃ ea, exArgOf x = some ea ∧ ea.linepos = p) :
    Body nv env fn cx used r ss used' r' → x ∈ ss → ∃ s1 s2 used1 r1 r0, ss = s1 ++ s2 ∧ x ∈ s2 ∧
      Body nv env fn cx used r s1 used1 r1 ∧ SkipC r1 r0 ∧ ¬ AtEnd r0 ∧ Spec.here env fn r0 = p
  | .nil, h => by cases h
  | .shebang h _ _ _, hc => body_split hx h hc
  | .empty h _ _, hc => body_split hx h hc
  | .comment h _ h3, hc => by
    rcases List.mem_append.1 hc with hc | hc
    · obtain ⟨s1, s2, u, r1, r0, rfl, h1, h2⟩ := body_split hx h hc
      exact ⟨s1, s2 ++ _, u, r1, r0, by rw [List.append_assoc], by simp [h1], h2⟩
    · cases h3; exact absurd (commandAt_mem hc hx) commandAt_comment
  | .noCommand (ms := ms) (rg := rg) h h1 _ _ h4, hc => by
    rw [List.append_assoc] at hc ⊢
    rcases List.mem_append.1 hc with hc | hc
    · obtain ⟨s1, s2, u, r1, r0, rfl, h1, h2⟩ := body_split hx h hc
      exact ⟨s1, s2 ++ _, u, r1, r0, by rw [List.append_assoc], by simp [h1], h2⟩
    · refine ⟨_, _, _, _, _, rfl, hc, h, h1.2.1, h1.2.2.1, ?_⟩
      rcases commandAt_append (commandAt_mem hc hx) with hc | hc
      · split at hc
        · exact absurd hc commandAt_nil
        · exact commandAt_simple rfl hc
      · exact absurd hc (commandAt_trail h4)
  | .simple h h1 h2 h3, hc => by
    rw [List.append_assoc] at hc ⊢
    rcases List.mem_append.1 hc with hc | hc
    · obtain ⟨s1, s2, u, r1, r0, rfl, h1, h2⟩ := body_split hx h hc
      exact ⟨s1, s2 ++ _, u, r1, r0, by rw [List.append_assoc], by simp [h1], h2⟩
    · obtain ⟨ms, rg, rc, r2, b, r3, g1, _, _, _, _, _, g7⟩ := h1
      refine ⟨_, _, _, _, _, rfl, hc, h, g1.2.1, g1.2.2.1, ?_⟩
      rcases commandAt_append (commandAt_mem hc hx) with hc | hc
      · exact (Options.pos g7).1.symm.trans (simple_at h2 hc)
      · exact absurd hc (commandAt_trail h3)
  | .block h h1 h2, hc => by
    rw [List.append_assoc] at hc ⊢
    rcases List.mem_append.1 hc with hc | hc
    · obtain ⟨s1, s2, u, r1, r0, rfl, h1, h2⟩ := body_split hx h hc
      exact ⟨s1, s2 ++ _, u, r1, r0, by rw [List.append_assoc], by simp [h1], h2⟩
    · rcases List.mem_append.1 hc with hx' | hx'
      · cases List.mem_singleton.1 hx'
        obtain ⟨ea, e1, e2⟩ := hx
        obtain ⟨r0, c, ra, r1, u, g⟩ := block_head h1 e1
        obtain ⟨ms, rg, rc, r2, b, r3, g1, _, _, _, _, _, g7⟩ := g
        exact ⟨_, _, _, _, _, rfl, hc, h, g1.2.1, g1.2.2.1, (Options.pos g7).1.symm.trans e2⟩
      · exact absurd (commandAt_mem hx' hx) (commandAt_trail h2)

/-! ### Lines start behind a line end or a bar -/

/-- The text `r` is the whole file, its end, or behind a line end or a bar. -/
def Prev (env : Env) (r : List Cell) : Prop :=
  r = env.buf ∨ r = [] ∨ ∃ pre c, env.buf = pre ++ c :: r ∧ (c.c = none ∨ c.c = some '|')

theorem prev_eol {e : Cell} (h : e :: r <:+ env.buf) (he : e.c = none) : Prev env r := by
  obtain ⟨t, ht⟩ := h
  exact .inr (.inr ⟨t, e, ht.symm, .inl he⟩)

theorem prev_trail {cm} (hs : r <:+ env.buf) (h : Trail env fn r cm r') : Prev env r' := by
  cases h with
  | eof _ => exact .inr (.inl rfl)
  | eol h1 h2 => exact prev_eol (h1.adv.suffix.trans hs) h2
  | bar h1 h2 =>
    obtain ⟨pre, rfl, hp⟩ := h2
    obtain ⟨t, ht⟩ := h1.adv.suffix.trans hs
    cases pre with
    | nil => cases hp
    | cons c pre =>
      cases pre with
      | nil => exact .inr (.inr ⟨t, c, ht.symm, .inr (by simpa using hp)⟩)
      | cons d pre => simp at hp
  | comment h1 h2 =>
    cases h2 with
    | mk g1 g2 g3 => exact prev_eol (((g2.suf.trans g1.suf).trans h1.adv.suffix).trans hs) g3

theorem prev_opens {α : Type} {n : Str} {A : List Cell → α → List Cell → Prop} {ea a cm} (hA : ∀ {r a r'}, A r a r' → r' <:+ r)
    (hs : r <:+ env.buf) (h : Spec.Opens nv env fn n A used r ea a cm used' r') : Prev env r' := by
  obtain ⟨r0, c, ra, r1, r2, _, h1, h2, h3⟩ := h
  obtain ⟨a1, a2, a3⟩ := head_track h1
  exact prev_trail (((hA h2).trans (a2.suffix.trans a3.suffix)).trans hs) h3

theorem prev_body {cx used r ss used' r'} (hs : r <:+ env.buf) (hp : Prev env r) (h : Body nv env fn cx used r ss used' r') :
    Prev env r' := by
  cases h with
  | nil => exact hp
  | shebang h _ h1 h2 => exact prev_eol ((h1.suf.trans (body_order h).suffix).trans hs) h2
  | empty h h1 h2 => exact prev_eol ((h1.adv.suffix.trans (body_order h).suffix).trans hs) h2
  | comment h h1 h2 =>
    cases h2 with
    | mk g1 g2 g3 => exact prev_eol ((((g2.suf.trans g1.suf).trans h1.adv.suffix).trans (body_order h).suffix).trans hs) g3
  | noCommand h h1 _ _ h2 => exact prev_trail (((noCommand_order (env := env) (fn := fn) (s := []) h1).suffix.trans (body_order h).suffix).trans hs) h2
  | simple h h1 h2 h3 => exact prev_trail (((simple_order h1 h2).suffix.trans (body_order h).suffix).trans hs) h3
  | block h h1 h2 => exact prev_trail (((block_order h1).suffix.trans (body_order h).suffix).trans hs) h2

theorem prev_front {cx b used r} (h : Front nv env fn cx b used r) : Prev env r := by
  induction h with
  | start => exact .inl rfl
  | lines h0 h ih => exact prev_body (front_suffix h0) ih h
  | function h0 h => exact prev_opens (fun h => (funcHead_track h).1.suffix) (front_suffix h0) h
  | while_ h0 h => exact prev_opens leaves_gram (front_suffix h0) h
  | for_ h0 h =>
    refine prev_opens (fun h => ?_) (front_suffix h0) h
    cases h with
    | mk a b c d => exact (((leaves_gram d).trans c.adv.suffix).trans b.adv.suffix).trans (leaves_lhs leaves_target a)
  | if_ h0 h => exact prev_opens leaves_gram (front_suffix h0) h
  | try_ h0 h => exact prev_opens leaves_none (front_suffix h0) h
  | elseif h0 _ h => exact prev_opens leaves_gram (front_suffix h0) h
  | else_ h0 _ h => exact prev_opens leaves_none (front_suffix h0) h
  | catch_ h0 _ h => exact prev_opens leaves_catch (front_suffix h0) h
  | finally_ h0 _ h => exact prev_opens leaves_none (front_suffix h0) h

/-! ### The place of a line -/

theorem same_skip {P : Cell → Prop} {M sk L q X : List Cell} (hX : X = [] ∨ ∃ X' c, X = X' ++ [c] ∧ ¬ P c)
    (hM : M = [] ∨ ∃ M' c, M = M' ++ [c] ∧ ¬ P c) (hk : ∀ x ∈ sk, P x) (hL : ∀ x ∈ L, P x)
    (h : X ++ (sk ++ q) = M ++ (L ++ q)) : sk = L := by
  have h1 : X ++ sk = M ++ L := by
    rw [← List.append_assoc, ← List.append_assoc] at h
    exact List.append_cancel_right h
  have key : ∀ {M a : List Cell} {X}, (M = [] ∨ ∃ M' c, M = M' ++ [c] ∧ ¬ P c) → M = X ++ a → (∀ x ∈ a, P x) → a = [] := by
    intro M a X hM e ha
    rcases List.eq_nil_or_concat a with e1 | ⟨a', c, e1⟩
    · exact e1
    · subst e1
      rcases hM with rfl | ⟨M', d, rfl, hd⟩
      · simp at e
      · rw [List.concat_eq_append, ← List.append_assoc] at e
        have := (List.append_inj' e rfl).2
        cases this
        exact absurd (ha c (by simp)) hd
  rcases List.append_eq_append_iff.1 h1 with ⟨a, e1, e2⟩ | ⟨a, e1, e2⟩
  · rw [key hM e1 fun x hx => hk x (by rw [e2]; simp [hx])] at e2
    exact e2
  · rw [key hX e1 fun x hx => hL x (by rw [e2]; simp [hx])] at e2
    exact e2.symm

theorem suffix_head {lines : List Str} {c d : Cell} {s t : List Cell} (hs : c :: s <:+ (mkEnv lines).buf) (ht : d :: t <:+ (mkEnv lines).buf)
    (hl : c.pos.lnum = d.pos.lnum) (hc : c.pos.col = d.pos.col) : c :: s = d :: t := by
  obtain ⟨a, ha⟩ := hs
  obtain ⟨b, hb⟩ := ht
  have e := Props.C04_injective lines a.length b.length c d (by rw [← ha]; simp) (by rw [← hb]; simp) hl hc
  exact (List.append_inj (ha.trans hb.symm) e).2

theorem buf_last (lines : List Str) : (mkEnv lines).buf = [] ∨ ∃ M c, (mkEnv lines).buf = M ++ [c] ∧ c.c = none := by
  rcases buildCells_last lines with rfl | ⟨i, p, h⟩
  · exact .inl rfl
  · exact .inr ⟨reindex 0 i, ⟨none, { p with i := i.length }⟩, by simp only [mkEnv, h, reindex_append, reindex, Nat.zero_add], rfl⟩

theorem span_cells {f : Char → Bool} {v : Str} (h : Span f r v r') : ∃ sk, r = sk ++ r' ∧ ∀ x ∈ sk, ∃ c, x.c = some c ∧ f c = true := by
  obtain ⟨⟨pre, e, h1⟩, h2, _⟩ := h
  refine ⟨pre, e, fun x hx => ?_⟩
  have : x.c ∈ v.map some := h1 ▸ List.mem_map_of_mem hx
  obtain ⟨c, hc, e⟩ := List.mem_map.1 this
  exact ⟨c, e.symm, h2 c hc⟩

/-- The text at the line `l`. -/
theorem restB_lead {A B : List Str} {l : Str} (hl : afterBackslash l = none) : ∃ L q, restB A (l :: B) = L ++ q ∧
    (∀ x ∈ L, ∃ c, x.c = some c ∧ (iswhite c || c == ':') = true) ∧
    ∀ c t, afterLead l = c :: t → ∃ x s, q = x :: s ∧ x.pos.lnum = A.length + 1 ∧ x.pos.col = bytes (lead l) + 1 := by
  have e : lineCells (A.length + 1) 0 (totalLen A) l = _ := (congrArg (lineCells (A.length + 1) 0 (totalLen A)) (lead_append l)).trans
    (lineCells_append ..)
  have hc : isCont l = false := by
    cases h : isCont l with
    | false => rfl
    | true => rw [isCont_iff, hl] at h; cases h
  rw [restB_cells hc, e, List.append_assoc, reindex_append]
  refine ⟨_, _, rfl, fun x hx => ?_, fun c t ht => ?_⟩
  · have : x.c ∈ (lead l).map some := by
      have := List.mem_map_of_mem (f := Cell.c) hx
      rw [reindex_text, lineCells_text] at this
      exact this
    obtain ⟨c, hc, e⟩ := List.mem_map.1 this
    exact ⟨c, e.symm, lead_chars l c hc⟩
  · rw [ht]
    exact ⟨_, _, rfl, rfl, by simp [bytesLen_eq]⟩

/-- A line whose first command is the first text of the line `l` starts with this line. -/
theorem front_restB {A B : List Str} {l : Str} {cx b used r r0} (hl : afterBackslash l = none)
    (h : Front nv (mkEnv (A ++ l :: B)) fn cx b used r) (hk : SkipC r r0) (hn : ¬ AtEnd r0)
    (e1 : (Spec.here (mkEnv (A ++ l :: B)) fn r0).line = A.length + 1)
    (e2 : (Spec.here (mkEnv (A ++ l :: B)) fn r0).column = bytes (lead l) + 1) : r = restB A (l :: B) := by
  have hB : ∀ y, (l :: B).head? = some y → afterBackslash y = none := by rintro _ ⟨⟩; exact hl
  have hs0 := hk.adv.suffix.trans (front_suffix h)
  cases r0 with
  | nil => exact absurd (.inr rfl) hn
  | cons d s =>
    have e1 : d.pos.lnum = A.length + 1 := e1
    have e2 : d.pos.col = bytes (lead l) + 1 := e2
    cases hd : d.c with
    | none => exact absurd (.inl (by simp [headSym, Cell.sym, hd])) hn
    | some ch =>
      obtain ⟨p, _, _, p1, p2⟩ := Props.C02_line_col _ d (hs0.subset (by simp)) ch hd
      have hn : p.n = A.length := by omega
      have hp := p.ok
      rw [hn] at hp
      simp only [List.getElem?_append_right (Nat.le_refl _), Nat.sub_self, List.getElem?_cons_zero, Option.some.injEq] at hp
      have hlen : bytes p.pre < bytes l := by
        have h1 := congrArg bytesLen hp
        rw [bytesLen_append, bytesLen] at h1
        have : 1 ≤ runeLen p.c := Char.utf8Size_pos p.c
        rw [← bytesLen_eq, ← bytesLen_eq]
        omega
      obtain ⟨L, q, g1, g2, g3⟩ := restB_lead (A := A) (B := B) hl
      cases ha : afterLead l with
      | nil =>
        have := lead_append l
        rw [ha, List.append_nil] at this
        rw [← this] at e2
        omega
      | cons c t =>
        obtain ⟨x, q', rfl, k1, k2⟩ := g3 c t ha
        have hbuf := mkEnv_append (A := A) hB
        change _ = _ ++ restB A (l :: B) at hbuf
        rw [g1] at hbuf
        have hq := suffix_head hs0 (⟨(mkEnv A).buf ++ L, by rw [hbuf, List.append_assoc]⟩ : x :: q' <:+ _) (e1.trans k1.symm) (e2.trans k2.symm)
        rw [hq] at hk
        obtain ⟨w, hk⟩ := hk
        obtain ⟨sk, rfl, hsk⟩ := span_cells hk
        let P : Cell → Prop := fun x => ∃ c, x.c = some c ∧ (iswhite c || c == ':') = true
        have hM : (mkEnv A).buf = [] ∨ ∃ M' c, (mkEnv A).buf = M' ++ [c] ∧ ¬ P c := by
          refine (buf_last A).imp id fun ⟨M, c, e, hc⟩ => ⟨M, c, e, fun ⟨d, hd, _⟩ => ?_⟩
          rw [hc] at hd
          cases hd
        have key : ∀ X, (X = [] ∨ ∃ X' c, X = X' ++ [c] ∧ ¬ P c) → (mkEnv (A ++ l :: B)).buf = X ++ (sk ++ x :: q') →
            sk ++ x :: q' = restB A (l :: B) := by
          intro X hX e
          rw [same_skip hX hM hsk g2 (e.symm.trans hbuf), g1]
        rcases prev_front h with e | e | ⟨pre, c, e, hc⟩
        · exact key [] (.inl rfl) e.symm
        · simp at e
        · refine key (pre ++ [c]) (.inr ⟨pre, c, rfl, ?_⟩) (by simpa using e)
          rintro ⟨d, hd, h1⟩
          rcases hc with hc | hc <;> rw [hc] at hd <;> cases hd
          revert h1
          decide

/-! ### Lines before the place -/

/-- A line that is no command is wrong everywhere. -/
theorem xyzzy_wrong (nv : Bool) (fn : Str) (A : List Str) (cx : Ctx) (b : Option Inner) (used : List Str) :
    ∃ q, LineErr nv (mkEnv (A ++ [cs!"xyzzy"])) fn cx b used (restB A [cs!"xyzzy"]) cs!"E492: Not an editor command: xyzzy" q ∧
      q.lnum = A.length + 1 ∧ q.col = 1 := by
  have hX : ∀ l, [cs!"xyzzy"].head? = some l → afterBackslash l = none := by
    intro l hl
    cases hl
    decide +kernel
  have h0 : Between nv [] [] := Props.between_of (o := 0) (by cases nv <;> decide +kernel)
  obtain ⟨n, o, h⟩ := h0
  have h : parseFileLines nv fn [cs!"xyzzy"] = some (resNamed fn ⟨n, some (.parse [] o 1 1 cs!"E492: Not an editor command: xyzzy")⟩) :=
    (Props.C81_lines nv [] fn [cs!"xyzzy"]).trans (congrArg (Option.map (resNamed fn)) h)
  obtain ⟨_, _, q, _, hl, hc, h⟩ := (Props.C54_lines ..).1 h
  cases h with
  | unclosed h1 h2 => exact absurd rfl ((unclosed_message (env := mkEnv []) (fn := fn) (q := ⟨0, 0, 0, 0⟩) h2).ne cs!"xyzzy")
  | @line cx' b' used' r _ _ h1 h2 =>
    rcases lineErr_message0 (front_suffix h1) h2 with h2 | ⟨r0, ms, rg, rc, l, r', g1, g2, g3, g4, g5, g6, rfl⟩
    · exact absurd rfl (h2.ne cs!"xyzzy")
    · have e : r = (mkEnv [cs!"xyzzy"]).buf := by
        rcases prev_front h1 with e | rfl | ⟨pre, c, e, hc⟩
        · exact e
        · have := (g1.adv.suffix.trans g1.2.1.adv.suffix).length_le
          rw [List.eq_nil_of_length_eq_zero (Nat.le_zero.1 this)] at g2
          exact absurd (.inr rfl) g2
        · have hm : c.c ∈ [some 'x', some 'y', some 'z', some 'z', some 'y', none] := by
            have : c.c ∈ (mkEnv [cs!"xyzzy"]).buf.map Cell.c := List.mem_map_of_mem (by rw [e]; simp)
            exact this
          rcases hc with hc | hc
          · have e' : (mkEnv [cs!"xyzzy"]).buf.map Cell.c = _ := congrArg (List.map Cell.c) e
            cases r with
            | nil =>
              have := (g1.adv.suffix.trans g1.2.1.adv.suffix).length_le
              rw [List.eq_nil_of_length_eq_zero (Nat.le_zero.1 this)] at g2
              exact absurd (.inr rfl) g2
            | cons y r =>
              exfalso
              simp only [List.map_append, List.map_cons, hc] at e'
              have e' : [some 'x', some 'y', some 'z', some 'z', some 'y', none] = _ := e'
              match pre, e' with
              | [], e' => simp at e'
              | [_], e' => simp at e'
              | [_, _], e' => simp at e'
              | [_, _, _], e' => simp at e'
              | [_, _, _, _], e' => simp at e'
              | [_, _, _, _, _], e' => simp at e'
              | _ :: _ :: _ :: _ :: _ :: _ :: _, e' => simp at e'
          · rw [hc] at hm
            simp at hm
      subst e
      rw [g6]
      have h3 := headErr_any (headErr_mv (moverB fn A hX) (Names.refl _) (.name (env := mkEnv [cs!"xyzzy"]) (fn := fn) g1 g2 g3 g4 g5)) used
      rw [Mover.map] at h3
      refine ⟨_, .head h3, ?_, ?_⟩
      · show (posOf _ rc).lnum + A.length = A.length + 1
        rw [hl, Nat.add_comm]
      · exact hc.symm

/-- Correct lines up to the line `l`: a place between statements. -/
theorem front_between {A B : List Str} {l : Str} {cx b used} (hl : afterBackslash l = none)
    (h : Front nv (mkEnv (A ++ l :: B)) fn cx b used (restB A (l :: B))) : Between nv fn A := by
  have hB : ∀ y, (l :: B).head? = some y → afterBackslash y = none := by rintro _ ⟨⟩; exact hl
  have hX : ∀ l, [cs!"xyzzy"].head? = some l → afterBackslash l = none := by
    intro l hl
    cases hl
    decide +kernel
  let ι : Fore (A ++ l :: B) (mkEnv (A ++ [cs!"xyzzy"])) fn := foreOf fn hB hX (by simp)
  obtain ⟨x, h1⟩ := Fore.front_before (ι := ι) h (.inr rfl)
  have e : ι.κ.tr (restB A (l :: B)) = restB A [cs!"xyzzy"] := Carry.tr_end (κ := ι.κ)
  rw [e] at h1
  obtain ⟨q, h2, h3, h4⟩ := xyzzy_wrong nv fn A cx b x
  exact ⟨none, q.i, (Props.C54_lines ..).2 ⟨rfl, rfl, q, rfl, h3.symm, h4.symm, .line h1 h2⟩⟩

/-- Statements up to the line `l`: a whole script. -/
theorem body_upto {A B : List Str} {l : Str} {ss used} (hl : afterBackslash l = none)
    (h : Body nv (mkEnv (A ++ l :: B)) fn { top := true } [] (mkEnv (A ++ l :: B)).buf ss used (restB A (l :: B))) :
    ∃ p, Complete nv fn A ⟨p, ss⟩ := by
  have hB : ∀ y, (l :: B).head? = some y → afterBackslash y = none := by rintro _ ⟨⟩; exact hl
  have hX : ∀ l, [commentLine].head? = some l → afterBackslash l = none := by
    intro l hl
    cases hl
    decide +kernel
  let ι : Fore (A ++ l :: B) (mkEnv (A ++ [commentLine])) fn := foreOf fn hB hX (by simp)
  obtain ⟨u, _, h1⟩ := Fore.before (ι := ι) h ι.start (.inr rfl) (Carry.adds_nil _)
  have e : ι.κ.tr (restB A (l :: B)) = restB A [commentLine] := Carry.tr_end (κ := ι.κ)
  rw [e, ι.buf, show ι.κ.m = id from rfl, stmtL_id] at h1
  have e2 : restB A [commentLine] = commentCells A := by
    have h1 := mkEnv_append (A := A) hX
    rw [mkEnv_comment] at h1
    exact (List.append_cancel_left h1).symm
  rw [e2] at h1
  refine ⟨_, (Props.C52_lines ..).2 ⟨_, .comment h1 (r2 := commentCells A) ⟨[], Reads.nil _, by simp, rfl⟩ ?_, rfl⟩⟩
  exact .mk (r1 := (commentCells A).tail) (t := []) ⟨[_], rfl, rfl⟩ (Reads.nil _) rfl

end Viml
