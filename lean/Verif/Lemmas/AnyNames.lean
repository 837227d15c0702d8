/-
Whether a script is accepted does not depend on the user commands before: these change only where the name of a user
command ends, and a user command takes the rest of its line as it is.
-/
import Verif.Lemmas.MoverFile
import Verif.Lemmas.RunIff

namespace Viml
open Spec

variable {nv : Bool} {env : Env} {fn : Str} {used used' : List Str} {r r' r0 ra rc : List Cell} {c : Cmd} {ea : Ast.ExArg}

/-- A name that does not start with an upper case letter. -/
def lowB : Str → Bool
  | [] => true
  | c :: _ => !decide ('A' ≤ c ∧ c ≤ 'Z')

theorem upper_ne {n x : Str} (h : Upper n) (hx : lowB x = true) : n ≠ x := by
  obtain ⟨c, s, rfl, h⟩ := h
  rintro rfl
  simp only [lowB, Bool.not_eq_true', decide_eq_false_iff_not] at hx
  exact hx h

theorem upper_notMem {n : Str} {xs : List Str} (h : Upper n) (hx : xs.all lowB = true) : n ∉ xs :=
  fun hm => upper_ne h (List.all_eq_true.1 hx _ hm) rfl

theorem reads_trans {a b : Str} {r1 : List Cell} (h1 : Reads r a r1) (h2 : Reads r1 b r') : Reads r (a ++ b) r' := by
  obtain ⟨p, e1, e2⟩ := h1
  obtain ⟨q, e3, e4⟩ := h2
  exact ⟨p ++ q, by rw [e1, e3, List.append_assoc], by rw [List.map_append, List.map_append, e2, e4]⟩

/-- From every place of a line its end is reached. -/
theorem reads_line_end : ∀ {w w' : Str} {r e : List Cell}, Reads r w e → AtEnd e → Reads r w' r' → ∃ l, Reads r' l e
  | w, [], r, e, h, _, h' => by cases h'.nil_inv; exact ⟨w, h⟩
  | [], x :: w', r, e, h, he, h' => by
    cases h.nil_inv
    obtain ⟨q, r1, rfl, _⟩ := h'.cons_inv
    rcases he with he | he <;> simp [headSym, Cell.sym] at he
  | y :: w, x :: w', r, e, h, he, h' => by
    obtain ⟨q, r1, rfl, h1⟩ := h'.cons_inv
    obtain ⟨q', r2, e2, h2⟩ := h.cons_inv
    injection e2 with _ e3
    subst e3
    exact reads_line_end h2 he h1

/-- The name of a command: an entry of the table, whatever the names before, or a user command. -/
theorem cmdName_any (h : CmdName nv used r c r' used') : (∀ usedX, CmdName nv usedX r c r' usedX) ∨
    ∃ n a r1 w, c = userCommand n ∧ Upper n ∧ Span isalpha r a r1 ∧ UserWord nv a ∧ Reads r w r' := by
  cases h with
  | table h1 h2 h3 h4 h5 => exact .inl fun _ => .table h1 h2 h3 h4 h5
  | user h1 h2 h3 h4 =>
    obtain ⟨c, s, e, hc⟩ := h2.1
    exact .inr ⟨_, _, _, _, rfl, ⟨c, _, by rw [e, List.cons_append], hc⟩, h1, h2, reads_trans h1.1 h4.1⟩
  | again h1 h2 h3 => exact .inr ⟨_, _, _, _, rfl, h2.1, h1, h2, h1.1⟩

/-- A user command with other names before. -/
theorem cmdName_user {a : Str} {r1 : List Cell} (h : Span isalpha r a r1) (hu : UserWord nv a) (usedX : List Str) :
    ∃ n r' usedX' w, Upper n ∧ CmdName nv usedX r (userCommand n) r' usedX' ∧ Reads r w r' := by
  by_cases hm : a ∈ usedX
  · exact ⟨a, r1, _, _, hu.1, .again h hu hm, h.1⟩
  · obtain ⟨b, r', hb⟩ := span_total isalnum r1
    have : Upper (a ++ b) := by
      obtain ⟨⟨c, s, rfl, hc⟩, _⟩ := hu
      exact ⟨c, s ++ b, rfl, hc⟩
    exact ⟨_, r', _, _, this, .user h hu hm hb, reads_trans h.1 hb.1⟩

/-- User commands have no options. -/
theorem options_user {n : Str} (hn : Upper n) {ea' : Ast.ExArg} (h : Options (userCommand n) ea r ea' r') : r' = r := by
  obtain ⟨e1, r1, e2, r2, e3, r3, e4, r4, h1, h2, h3, h4, h5⟩ := h
  have h1 : r1 = r := by
    rcases h1 with ⟨h1, _⟩ | ⟨_, _, h1⟩
    · simp [userCommand] at h1
    · exact h1
  have h2 : r2 = r1 := by
    cases h2 with
    | append h2 => rcases h2 with h2 | h2 <;> exact absurd h2 (upper_ne hn (by decide))
    | filter h2 => exact absurd h2 (upper_ne hn (by decide))
    | none => rfl
  have h3 : r3 = r2 := by
    cases h3 with
    | bang h2 => rfl
    | filter h2 => exact absurd h2 (upper_ne hn (by decide))
    | none => rfl
  have h4 : r4 = r3 := by
    cases h4 with
    | shift h2 h3 => exact absurd h2 (upper_ne hn (by rcases h3 with rfl | rfl <;> decide))
    | none => rfl
  rcases h5 with ⟨⟨h5, _⟩, _⟩ | ⟨_, _, h5⟩
  · simp [userCommand] at h5
  · rw [h5, h4, h3, h2, h1]

theorem user_options {n : Str} (hn : Upper n) : Options (userCommand n) ea r ea r :=
  ⟨ea, r, ea, r, ea, r, ea, r, .inr ⟨by simp [userCommand], rfl, rfl⟩,
    .none (fun h => by rcases h with h | h <;> exact absurd h (upper_ne hn (by decide)))
      (fun h => absurd h (upper_ne hn (by decide))),
    .none (fun h => absurd h (upper_ne hn (by decide))),
    .none (upper_ne hn (by decide)) (upper_ne hn (by decide)), .inr ⟨by simp [userCommand], rfl, rfl⟩⟩

/-- The start of a command line: the same whatever the names before, or that of a user command. -/
theorem cmdHead_any (h : CmdHead nv env fn used r r0 ea c ra r' used') :
    (∀ usedX, CmdHead nv env fn usedX r r0 ea c ra r' usedX) ∨
    ∃ n rc w, c = userCommand n ∧ Upper n ∧ Reads rc w r' ∧ ∀ usedX, ∃ n' ea' ra' r'' usedX' w', Upper n' ∧
      CmdHead nv env fn usedX r r0 ea' (userCommand n') ra' r'' usedX' ∧ Reads rc w' r'' := by
  obtain ⟨ms, rg, rc, r1, b, r2, h1, h2, h3, h4, h5, h6, h7⟩ := h.ex
  rcases cmdName_any h4 with h | ⟨n, a, r3, w, rfl, hn, hs, hu, hw⟩
  · exact .inl fun usedX => ⟨ms, rg, rc, r1, b, r2, h1, h2, h3, h usedX, h5, h6, h7⟩
  · right
    have e := options_user hn h7
    subst e
    have h8 : ∃ v, Reads r1 v r2 := by
      cases h5 with
      | yes h => exact ⟨_, h⟩
      | no => exact ⟨[], [], rfl, rfl⟩
    obtain ⟨v, hv⟩ := h8
    have h9 : ∃ v, Reads r2 v r' := by
      rcases h6 with ⟨_, rfl⟩ | ⟨_, v, h6⟩
      · exact ⟨[], [], rfl, rfl⟩
      · exact ⟨v, h6.1⟩
    obtain ⟨v', hv'⟩ := h9
    refine ⟨n, rc, _, rfl, hn, reads_trans (reads_trans hw hv) hv', fun usedX => ?_⟩
    obtain ⟨n', s1, usedX', w', hn', hc, hr⟩ := cmdName_user hs hu usedX
    have hb : ∃ b s2 v, Bang (userCommand n') s1 b s2 ∧ Reads s1 v s2 := by
      by_cases hh : headSym s1 = .ch '!'
      · have : Reads s1 ['!'] s1.tail := by
          cases s1 with
          | nil => cases hh
          | cons c t =>
            refine ⟨[c], rfl, ?_⟩
            cases hc : c.c with
            | none => simp [headSym, Cell.sym, hc] at hh
            | some x => simp [headSym, Cell.sym, hc] at hh; simp [hc, hh]
        exact ⟨true, _, _, .yes this (upper_notMem hn' (by decide)) (.inr (by simp [userCommand])), this⟩
      · exact ⟨false, s1, [], .no (.inl hh), [], rfl, rfl⟩
    obtain ⟨b', s2, v2, hb, hv2⟩ := hb
    obtain ⟨v3, s3, hs3⟩ := span_total iswhite s2
    exact ⟨n', _, s3, s3, usedX', _, hn', ⟨ms, rg, rc, s1, b', s2, h1, h2, h3, hc, hb, .inr ⟨upper_ne hn' (by decide), v3, hs3⟩,
      user_options hn'⟩, reads_trans (reads_trans hr hv2) hs3.1⟩

theorem userText {n : Str} {f : Bool} {s : Str} (h : RawText env fn (userCommand n) f r0 ra r s r') :
    Reads r0 s r' ∧ ∃ l, RestOf r l r' := by
  cases h with
  | bar h => simp [userCommand] at h
  | line _ h1 h2 => exact ⟨h2, _, h1⟩

/-- A user command is the rest of its line. -/
theorem simple_user {cx : Ctx} {n : Str} (hn : Upper n) {xs : List Ast.Stmt}
    (h : Spec.Simple env fn cx r0 ra ea (userCommand n) r xs r') : (∃ s, Reads r0 s r') ∧ ∃ l, RestOf r l r' := by
  cases h
  case raw h =>
    cases h
    case common _ h => exact ⟨⟨_, (userText h).1⟩, (userText h).2⟩
    case append h _ => rcases h with h | h <;> exact absurd h (upper_ne hn (by decide))
    case script h _ _ _ _ _ => exact absurd h (upper_notMem hn (by decide))
    case scriptLine h _ _ _ => exact absurd h (upper_notMem hn (by decide))
    all_goals exact absurd ‹(userCommand n).name = _› (upper_ne hn (by decide))
  case echo h _ => exact absurd h (upper_notMem hn (by decide))
  all_goals exact absurd ‹(userCommand n).name = _› (upper_ne hn (by decide))

/-- A command line with other names before. -/
theorem simple_any {cx : Ctx} {xs : List Ast.Stmt} {r1 : List Cell} (h : CmdHead nv env fn used r r0 ea c ra r1 used')
    (hs : Spec.Simple env fn cx r0 ra ea c r1 xs r') (usedX : List Str) : ∃ ea' c' ra' r1' usedX' xs',
      CmdHead nv env fn usedX r r0 ea' c' ra' r1' usedX' ∧ Spec.Simple env fn cx r0 ra' ea' c' r1' xs' r' := by
  rcases cmdHead_any h with h | ⟨n, rc, w, rfl, hn, hw, hX⟩
  · exact ⟨_, _, _, _, _, _, h usedX, hs⟩
  · obtain ⟨n', ea', ra', r2, usedX', w', hn', hh, hr⟩ := hX usedX
    obtain ⟨⟨s, h1⟩, l, h2⟩ := simple_user hn hs
    obtain ⟨l', hl⟩ := reads_line_end (reads_trans hw h2.1) h2.2 hr
    exact ⟨_, _, _, _, _, _, hh, .raw (.common (upper_notMem hn' (by decide))
      (.line (by simp [userCommand]) ⟨hl, h2.2⟩ h1))⟩

theorem named_any {n : Str} (hn : lowB n = true) (hc : c.name = n) (h : CmdHead nv env fn used r r0 ea c ra r' used')
    (usedX : List Str) : CmdHead nv env fn usedX r r0 ea c ra r' usedX := by
  rcases cmdHead_any h with h | ⟨m, rc, w, rfl, hm, _⟩
  · exact h usedX
  · exact absurd hc (upper_ne hm hn)

theorem opens_any {α : Type} {n : Str} {A : List Cell → α → List Cell → Prop} {a : α} {cm} (hn : lowB n = true)
    (h : Spec.Opens nv env fn n A used r ea a cm used' r') (usedX : List Str) :
    Spec.Opens nv env fn n A usedX r ea a cm usedX r' := by
  obtain ⟨r0, c, ra, r1, r2, h1, h2, h3⟩ := h
  exact ⟨r0, c, ra, r1, r2, h1, named_any hn h1 h2 usedX, h3⟩

theorem closes_any {n : Str} {e : Ast.EndCmd} (hn : lowB n = true) (h : Closes nv env fn n used r e used' r')
    (usedX : List Str) : Closes nv env fn n usedX r e usedX r' := by
  obtain ⟨r0, ea, c, ra, r1, h1, h2, h3⟩ := h
  exact ⟨r0, ea, c, ra, r1, h1, named_any hn h1 h2 usedX, h3⟩

mutual

theorem body_any : ∀ {cx used r ss used' r'}, Body nv env fn cx used r ss used' r' → ∀ usedX,
    ∃ ssX usedX', Body nv env fn cx usedX r ssX usedX' r'
  | _, _, _, _, _, _, .nil, usedX => ⟨_, usedX, .nil⟩
  | _, _, _, _, _, _, .shebang h h1 h2 h3, usedX => by
    obtain ⟨_, _, h⟩ := body_any h usedX
    exact ⟨_, _, .shebang h h1 h2 h3⟩
  | _, _, _, _, _, _, .empty h h1 h2, usedX => by
    obtain ⟨_, _, h⟩ := body_any h usedX
    exact ⟨_, _, .empty h h1 h2⟩
  | _, _, _, _, _, _, .comment h h1 h2, usedX => by
    obtain ⟨_, _, h⟩ := body_any h usedX
    exact ⟨_, _, .comment h h1 h2⟩
  | _, _, _, _, _, _, .noCommand h h1 h2 h3 h4, usedX => by
    obtain ⟨_, _, h⟩ := body_any h usedX
    exact ⟨_, _, .noCommand h h1 h2 h3 h4⟩
  | _, _, _, _, _, _, .simple h h1 h2 h3, usedX => by
    obtain ⟨_, usedY, h⟩ := body_any h usedX
    obtain ⟨_, _, _, _, _, _, h4, h5⟩ := simple_any h1 h2 usedY
    exact ⟨_, _, .simple h h4 h5 h3⟩
  | _, _, _, _, _, _, .block h h1 h2, usedX => by
    obtain ⟨_, usedY, h⟩ := body_any h usedX
    obtain ⟨_, _, h3⟩ := block_any h1 usedY
    exact ⟨_, _, .block h h3 h2⟩

theorem block_any : ∀ {cx used r s used' r'}, Block nv env fn cx used r s used' r' → ∀ usedX,
    ∃ sX usedX', Block nv env fn cx usedX r sX usedX' r'
  | _, _, _, _, _, _, .function h1 h2 h3, usedX => by
    obtain ⟨_, usedY, h4⟩ := body_any h2 usedX
    exact ⟨_, _, .function (opens_any (by decide) h1 usedX) h4 (closes_any (by decide) h3 usedY)⟩
  | _, _, _, _, _, _, .while_ h1 h2 h3, usedX => by
    obtain ⟨_, usedY, h4⟩ := body_any h2 usedX
    exact ⟨_, _, .while_ (opens_any (by decide) h1 usedX) h4 (closes_any (by decide) h3 usedY)⟩
  | _, _, _, _, _, _, .for_ h1 h2 h3, usedX => by
    obtain ⟨_, usedY, h4⟩ := body_any h2 usedX
    exact ⟨_, _, .for_ (opens_any (by decide) h1 usedX) h4 (closes_any (by decide) h3 usedY)⟩
  | _, _, _, _, _, _, .if_ h1 h2, usedX => by
    obtain ⟨_, _, _, _, usedY, h4⟩ := ifPart_any h1 usedX
    exact ⟨_, _, .if_ h4 (closes_any (by decide) h2 usedY)⟩
  | _, _, _, _, _, _, .ifElse h1 h2 h3 h5, usedX => by
    obtain ⟨_, _, _, _, usedY, h4⟩ := ifPart_any h1 usedX
    obtain ⟨_, usedZ, h6⟩ := body_any h3 usedY
    exact ⟨_, _, .ifElse h4 (opens_any (by decide) h2 usedY) h6 (closes_any (by decide) h5 usedZ)⟩
  | _, _, _, _, _, _, .try_ h1 h2, usedX => by
    obtain ⟨_, _, _, usedY, h4⟩ := tryPart_any h1 usedX
    exact ⟨_, _, .try_ h4 (closes_any (by decide) h2 usedY)⟩
  | _, _, _, _, _, _, .tryFinally h1 h2 h3 h5, usedX => by
    obtain ⟨_, _, _, usedY, h4⟩ := tryPart_any h1 usedX
    obtain ⟨_, usedZ, h6⟩ := body_any h3 usedY
    exact ⟨_, _, .tryFinally h4 (opens_any (by decide) h2 usedY) h6 (closes_any (by decide) h5 usedZ)⟩

theorem ifPart_any : ∀ {cx used r ea ss x eis used' r'}, IfPart nv env fn cx used r ea ss x eis used' r' → ∀ usedX,
    ∃ eaX ssX xX eisX usedX', IfPart nv env fn cx usedX r eaX ssX xX eisX usedX' r'
  | _, _, _, _, _, _, _, _, _, .if_ h1 h2, usedX => by
    obtain ⟨_, usedY, h4⟩ := body_any h2 usedX
    exact ⟨_, _, _, _, _, .if_ (opens_any (by decide) h1 usedX) h4⟩
  | _, _, _, _, _, _, _, _, _, .elseif h1 h2 h3, usedX => by
    obtain ⟨_, _, _, _, usedY, h4⟩ := ifPart_any h1 usedX
    obtain ⟨_, usedZ, h6⟩ := body_any h3 usedY
    exact ⟨_, _, _, _, _, .elseif h4 (opens_any (by decide) h2 usedY) h6⟩

theorem tryPart_any : ∀ {cx used r ea ss cs used' r'}, TryPart nv env fn cx used r ea ss cs used' r' → ∀ usedX,
    ∃ eaX ssX csX usedX', TryPart nv env fn cx usedX r eaX ssX csX usedX' r'
  | _, _, _, _, _, _, _, _, .try_ h1 h2, usedX => by
    obtain ⟨_, usedY, h4⟩ := body_any h2 usedX
    exact ⟨_, _, _, _, .try_ (opens_any (by decide) h1 usedX) h4⟩
  | _, _, _, _, _, _, _, _, .catch_ h1 h2 h3, usedX => by
    obtain ⟨_, _, _, usedY, h4⟩ := tryPart_any h1 usedX
    obtain ⟨_, usedZ, h6⟩ := body_any h3 usedY
    exact ⟨_, _, _, _, .catch_ h4 (opens_any (by decide) h2 usedY) h6⟩

end

/-! ### Errors -/

theorem argsAt_any (h : ArgsAt nv env fn used r r0 rc ea c ra used') :
    (∀ usedX, ArgsAt nv env fn usedX r r0 rc ea c ra usedX) ∨ ∃ n, c = userCommand n ∧ Upper n := by
  obtain ⟨ms, rg, r1, b, r2, ⟨h1, h2, h3, h4⟩, h5⟩ := h
  rcases cmdName_any h4 with h | ⟨n, _, _, _, e, hn, _⟩
  · exact .inl fun usedX => ⟨ms, rg, r1, b, r2, ⟨h1, h2, h3, h usedX⟩, h5⟩
  · exact .inr ⟨n, e, hn⟩

theorem headAt_any (h : HeadAt nv env fn used r r0 rc ea c ra r' used') :
    (∀ usedX, HeadAt nv env fn usedX r r0 rc ea c ra r' usedX) ∨ ∃ n, c = userCommand n ∧ Upper n := by
  obtain ⟨ea0, h1, h2⟩ := h
  rcases argsAt_any h1 with h | h
  · exact .inl fun usedX => ⟨ea0, h usedX, h2⟩
  · exact .inr h

theorem headErr_any {m : Str} {q : Pos} (h : HeadErr nv env fn used r m q) (usedX : List Str) :
    HeadErr nv env fn usedX r m q := by
  cases h with
  | range h1 h2 h3 h4 h5 h6 h7 => exact .range h1 h2 h3 h4 h5 h6 h7
  | name h1 h2 h3 h4 h5 =>
    refine .name h1 h2 h3 (fun c s u h => ?_) h5
    rcases cmdName_any h with h | ⟨n, _, _, _, _, _, hs, hu, _⟩
    · exact h4 _ _ _ (h used)
    · obtain ⟨_, _, _, _, _, h6, _⟩ := cmdName_user hs hu used
      exact h4 _ _ _ h6
  | bang h1 h2 h3 h4 h5 =>
    obtain ⟨h6, h7, h8, h9⟩ := h1
    rcases cmdName_any h9 with h | ⟨n, _, _, _, rfl, _⟩
    · exact .bang ⟨h6, h7, h8, h usedX⟩ h2 h3 h4 h5
    · simp [userCommand] at h5
  | argOpt h1 h2 h3 =>
    rcases argsAt_any h1 with h | ⟨n, rfl, _⟩
    · exact .argOpt (h usedX) h2 h3
    · simp [userCommand] at h2
  | write h1 h2 h3 h4 h5 =>
    rcases argsAt_any h1 with h | ⟨n, rfl, hn⟩
    · exact .write (h usedX) h2 h3 h4 h5
    · rcases h3 with h3 | h3 <;> exact absurd h3 (upper_ne hn (by decide))

theorem rawErr_user {n : Str} {f : Bool} {m : Str} {q : Pos} (h : RawErr env fn (userCommand n) f ra r m q) : False := by
  cases h with
  | pat h => simp [userCommand] at h
  | run h => simp [userCommand] at h

theorem argErr_user {n : Str} (hn : Upper n) {f : Bool} {m : Str} {q : Pos}
    (h : ArgErr env fn (userCommand n) f ra r m q) : False := by
  cases h
  case raw h => exact rawErr_user h
  case lock h _ _ => rcases h with h | h <;> exact absurd h (upper_ne hn (by decide))
  case expr h _ => exact absurd h (upper_notMem hn (by decide))
  case exprs h _ => exact absurd h (upper_notMem hn (by decide))
  all_goals exact absurd ‹(userCommand n).name = _› (upper_ne hn (by decide))

theorem argsDone_user {cx : Ctx} {n : Str} (hn : Upper n) (h : ArgsDone env fn cx r0 ra ea (userCommand n) r r') :
    AtEnd r' := by
  cases h
  case simple h => exact (simple_user hn h).2.choose_spec.2
  case expr h _ => exact absurd h (upper_notMem hn (by decide))
  case none h => exact absurd h (upper_notMem hn (by decide))
  all_goals exact absurd ‹(userCommand n).name = _› (upper_ne hn (by decide))

theorem misplaced_user {cx : Ctx} {b : Option Inner} {n m : Str} (hn : Upper n) (h : Misplaced cx b n m) : False := by
  cases h <;> exact absurd rfl (upper_ne hn (by decide))

theorem trailErr_end {m : Str} {q : Pos} (he : AtEnd r) (h : TrailErr env r m q) : False := by
  cases h with
  | mk h1 h2 h3 h4 =>
    obtain ⟨w, h1⟩ := h1
    obtain ⟨l, h5⟩ := reads_line_end (w := []) ⟨[], rfl, rfl⟩ he h1.1
    cases w with
    | nil =>
      cases h1.1.nil_inv
      rcases he with he | he <;> rw [he] at h2 <;> cases h2
    | cons x w =>
      obtain ⟨q, r1, rfl, _⟩ := h1.1.cons_inv
      rcases he with he | he <;> simp [headSym, Cell.sym] at he

theorem lineErr_any {cx : Ctx} {b : Option Inner} {m : Str} {q : Pos} (h : LineErr nv env fn cx b used r m q)
    (usedX : List Str) : LineErr nv env fn cx b usedX r m q := by
  cases h with
  | head h => exact .head (headErr_any h usedX)
  | place h1 h2 =>
    rcases headAt_any h1 with h | ⟨n, rfl, hn⟩
    · exact .place (h usedX) h2
    · exact (misplaced_user hn h2).elim
  | args h1 h2 h3 =>
    rcases headAt_any h1 with h | ⟨n, rfl, hn⟩
    · exact .args (h usedX) h2 h3
    · exact (argErr_user hn h3).elim
  | trail h1 h2 h3 h5 =>
    rcases headAt_any h1 with h | ⟨n, rfl, hn⟩
    · exact .trail (h usedX) h2 h3 h5
    · exact (trailErr_end (argsDone_user hn h3) h5).elim

theorem lineNum_any (h : LineNum nv env fn used r) (usedX : List Str) : LineNum nv env fn usedX r := by
  cases h with
  | mods h1 h2 h3 h4 h5 h6 => exact .mods h1 h2 h3 h4 h5 h6
  | depth h1 h2 h3 h4 h5 =>
    rcases headAt_any h1 with h | ⟨n, rfl, hn⟩
    · exact .depth (h usedX) h2 h3 h4 h5
    · rcases h2 with h2 | h2 <;> exact absurd h2 (upper_ne hn (by decide))

end Viml
