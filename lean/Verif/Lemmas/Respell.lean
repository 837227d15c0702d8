/-
The spelling of the name of a command.
-/
import Verif.Lemmas.Indent
import Verif.Lemmas.Holder
import Verif.Spec.Respell

namespace Viml
open Spec

theorem Spec.RespelledL.refl (q : Ast.Pos) (t t' : Str) : ∀ ss : List Ast.Stmt, RespelledL q t t' ss ss
  | [] => .nil
  | _ :: ss => .cons (.same _) (RespelledL.refl q t t' ss)

theorem Spec.RespelledL.append {q : Ast.Pos} {t t' : Str} : ∀ {a a' b b' : List Ast.Stmt}, RespelledL q t t' a a' →
    RespelledL q t t' b b' → RespelledL q t t' (a ++ b) (a' ++ b')
  | _, _, _, _, .nil, h => h
  | _, _, _, _, .cons h1 h2, h => .cons h1 (RespelledL.append h2 h)

section
variable {nv : Bool} {env : Env} {fn : Str} {used used' : List Str} {t u : Str} {c : Cmd} {r x : List Cell}

/-! ### A name at the start of a line -/

theorem letter_spans {y : Char} (ha : isalpha y = true) (hh : headSym r = .ch y) :
    SkipC r r ∧ Skip r r ∧ ¬ AtEnd r ∧ ∀ z ∈ cs!".$'/?\\+-%*;,", headSym r ≠ .ch z := by
  have ha := alpha_not ha
  refine ⟨⟨[], Reads.nil _, by simp, by rw [hh]; simp [Sym.is, ha]⟩, ⟨[], Reads.nil _, by simp, by rw [hh]; simp [Sym.is, ha]⟩,
    by simp [AtEnd, hh], ?_⟩
  intro z hz e
  rw [hh] at e
  cases e
  exact ha.2.2.2.2.2 hz

theorem letter_address {y : Char} (ha : isalpha y = true) (hh : headSym r = .ch y) :
    Address r [] r ∧ Offsets r [] r ∧ Addresses r [] r ∧ Range r [] r := by
  obtain ⟨spc, sp, ne, np⟩ := letter_spans ha hh
  have ha := alpha_not ha
  have a : Address r [] r := by
    refine .none ?_
    rw [hh]
    simp only [Sym.is, ha.2.1, Bool.or_false]
    have := ha.2.2.2.2.2
    simp only [List.mem_cons, List.not_mem_nil, or_false, not_or] at this
    simp [this]
  have o : Offsets r [] r := by
    refine .nil sp ?_
    rw [hh]
    have := ha.2.2.2.2.2
    simp only [List.mem_cons, List.not_mem_nil, or_false, not_or] at this
    simp [Sym.is, ha.2.1, this]
  have as : Addresses r ([] ++ []) r := .one sp ne a o (np _ (by decide)) (np _ (by decide))
  exact ⟨a, o, as, .last as (.no (np _ (by decide)) (np _ (by decide))) (np _ (by decide)) (np _ (by decide))⟩

theorem reads_head {y : Char} {r r' : List Cell} {v : Str} (h : Reads r (y :: v) r') : headSym r = .ch y := by
  obtain ⟨q, r2, rfl, _⟩ := h.cons_inv
  rfl

theorem letter_noErr {y : Char} (ha : isalpha y = true) (hh : headSym r = .ch y) {m : Str} {q : Pos} :
    ¬ RangeErr env r m q := by
  obtain ⟨spc, sp, ne, np⟩ := letter_spans ha hh
  obtain ⟨a0, o0, as0, rg0⟩ := letter_address ha hh
  have h1 : ∀ {m q}, ¬ AddressErr env r m q := by
    intro m q h
    cases h with
    | pat h h1 => exact np _ (by rcases h with rfl | rfl <;> decide) (reads_head h1)
    | prev h => exact np _ (by decide) (reads_head h)
  have hAddr : ∀ {a r'}, Address r a r' → r' = r := by
    intro a r' h
    cases h with
    | dot h h1 => exact absurd (reads_head h1) (np _ (by rcases h with rfl | rfl <;> decide))
    | mark h1 => exact absurd (reads_head h1) (np _ (by decide))
    | pat h h1 => exact absurd (reads_head h1) (np _ (by rcases h with rfl | rfl <;> decide))
    | prev _ h1 => exact absurd (reads_head h1) (np _ (by decide))
    | num h h1 =>
      have := span_ne_head h1 h
      rw [hh] at this
      exact absurd this (by simp [Sym.is, alpha_not ha])
    | none => rfl
  have hOff : ∀ {a r'}, Offsets r a r' → r' = r := fun {a r'} h =>
    (((ok_rangeInts (env := env) (acc := [])).2 ⟨_, h, rfl⟩).det (ok_rangeInts.2 ⟨_, o0, rfl⟩)).2
  have hAs : ∀ {a r'}, Addresses r a r' → r' = r := fun {a r'} h =>
    (((ok_rangeInner (env := env) (acc := [])).2 ⟨_, h, rfl⟩).det (ok_rangeInner.2 ⟨_, as0, rfl⟩)).2
  intro h
  cases h with
  | first h =>
    cases h with
    | first h h2 =>
      cases h.det sp
      exact h1 h2
    | more h h2 h3 h4 h5 h6 =>
      cases h.det sp
      cases hAddr h3
      cases hOff h4
      rcases h5 with h5 | h5 <;> exact np _ (by decide) h5
  | more h h2 h3 h4 h5 =>
    cases hAs h
    cases h2 with
    | yes h h' => exact np _ (by rcases h with rfl | rfl <;> decide) (reads_head h')
    | no => exact np _ (by rcases h3 with rfl | rfl <;> decide) (reads_head h4)

theorem spell_head (h : Spells nv t u c) (ht : Reads r t x) : ∃ y, isalpha y = true ∧ headSym r = .ch y := by
  obtain ⟨⟨h1, h2⟩, _⟩ := h
  cases t with
  | nil => exact absurd rfl h1
  | cons y t => exact ⟨y, h2 y (by simp), reads_head ht⟩

theorem spell_line (ht : Reads r t x) (hx : LineIs x u) : LineIs r (t ++ u) := by
  obtain ⟨e, he, he'⟩ := hx
  exact ⟨e, ht.append he, he'⟩

section
variable (h : Spells nv t u c) (ht : Reads r t x) (hx : LineIs x u)
include h ht hx

theorem spell_noMod {m : Modifier} {r' : List Cell} (hm : ModAt r m r') : False := by
  obtain ⟨y, ha, hh⟩ := spell_head h ht
  cases hm with
  | mk h1 h2 h3 h4 h5 h6 h7 h8 h9 h10 =>
    rename_i d _ _ _ _ _ _ _ _ _ _ _ _ _ _ _ _ _
    have hd : d = [] := by
      cases d with
      | nil => rfl
      | cons z d =>
        have := reads_head h1
        rw [hh] at this
        cases this
        have := h2 _ (List.mem_cons_self ..)
        rw [(alpha_not ha).2.1] at this
        cases this
    subst hd
    rw [h4 rfl] at h1
    cases h1.nil_inv
    have hsp : Span isalpha r t x := by
      refine ⟨ht, h.letters.2, ?_⟩
      obtain ⟨e, he, he'⟩ := hx
      cases u with
      | nil =>
        cases he.nil_inv
        rcases he' with e | e <;> rw [e] <;> rfl
      | cons z u =>
        rw [reads_head he]
        exact h.stop z rfl
    have e2 := span_iff.1 hsp
    rw [span_iff.1 ⟨h5, h6, h7⟩] at e2
    injection e2 with e2
    subst e2
    exact h.noMod _ h8 ⟨h9, h10⟩

theorem spell_mods {ms : List Modifier} {r1 : List Cell} (hm : Mods r ms r1) : ms = [] ∧ r1 = r :=
  hm.unique (.nil fun _ _ hm => spell_noMod h ht hx hm)

theorem spell_before : Before r r [] [] r := by
  obtain ⟨y, ha, hh⟩ := spell_head h ht
  obtain ⟨spc, sp, ne, np⟩ := letter_spans ha hh
  have ha' := alpha_not ha
  refine ⟨?_, spc, ne, by simp [hh, ha'], r, r, .nil fun _ _ hm => spell_noMod h ht hx hm, by simp [CountsOK],
    (letter_address ha hh).2.2.2, spc⟩
  rintro ⟨r', h⟩
  have := reads_head h
  rw [hh] at this
  cases this
  exact ha'.2.2.2.2.1 rfl

theorem before_spell {r0 rc : List Cell} {ms : List Modifier} {rg : List Str} (hb : Before r r0 ms rg rc) :
    r0 = r ∧ ms = [] ∧ rg = [] ∧ rc = r := by
  obtain ⟨y, ha, hh⟩ := spell_head h ht
  obtain ⟨spc, sp, ne, np⟩ := letter_spans ha hh
  obtain ⟨_, b1, b2, b3, r1, r2, b4, b5, b6, b7⟩ := hb
  cases b1.det spc
  obtain ⟨rfl, rfl⟩ := spell_mods h ht hx b4
  obtain ⟨rfl, rfl⟩ := ((ok_range (env := ⟨[], ⟨0, 0, 0, 0⟩⟩)).2 b6).det (ok_range.2 (letter_address ha hh).2.2.2)
  exact ⟨rfl, rfl, rfl, b7.det spc⟩

theorem spell_named (used : List Str) : NamedAt nv used r r [] [] r c x used := by
  obtain ⟨y, ha, hh⟩ := spell_head h ht
  obtain ⟨spc, sp, ne, np⟩ := letter_spans ha hh
  exact ⟨spell_before h ht hx, ne, by simp [hh, alpha_not ha], .table (spell_line ht hx) h.name h.cmd h.builtin ht⟩

theorem name_spell {d : Cmd} {r1 : List Cell} (hn : CmdName nv used r d r1 used') : d = c ∧ r1 = x ∧ used' = used := by
  have key : ∀ {a : Str} {r1 : List Cell}, Span isalpha r a r1 → UserWord nv a → False := by
    intro a r1 h1 h2
    have h3 := (ok_name (env := ⟨[], ⟨0, 0, 0, 0⟩⟩)).2 ⟨t, u, spell_line ht hx, h.name, ht⟩
    obtain ⟨e, _⟩ := h3.1.det ((name_upper h2.1).2 h1)
    exact h.builtin (e ▸ h2)
  cases hn with
  | table h1 h2 h3 h4 h5 =>
    have h6 := (ok_name (env := ⟨[], ⟨0, 0, 0, 0⟩⟩)).2 ⟨t, u, spell_line ht hx, h.name, ht⟩
    obtain ⟨rfl, rfl⟩ := (ok_name.2 ⟨_, _, h1, h2, h5⟩).1.det h6.1
    have := (lookupTable_iff.2 h3).symm.trans (lookupTable_iff.2 h.cmd)
    injection this with this
    exact ⟨this, rfl, rfl⟩
  | user h1 h2 => exact (key h1 h2).elim
  | again h1 h2 => exact (key h1 h2).elim

theorem named_spell {d : Cmd} {r0 rc r1 : List Cell} {ms : List Modifier} {rg : List Str}
    (hn : NamedAt nv used r r0 ms rg rc d r1 used') : r0 = r ∧ ms = [] ∧ rg = [] ∧ rc = r ∧ d = c ∧ r1 = x ∧ used' = used := by
  obtain ⟨rfl, rfl, rfl, rfl⟩ := before_spell h ht hx hn.1
  obtain ⟨rfl, rfl, rfl⟩ := name_spell h ht hx hn.2.2.2
  exact ⟨rfl, rfl, rfl, rfl, rfl, rfl, rfl⟩

end

/-- The text up to a place behind the name. -/
theorem text_after {v : Str} {e : List Cell} (ht : Reads r t x) (h : Reads r v e) (he : e <:+ x) :
    ∃ w, v = t ++ w ∧ Reads x w e := by
  obtain ⟨y, rfl⟩ := he
  obtain ⟨p, rfl, hp⟩ := ht
  obtain ⟨q, hq, hv⟩ := h
  rw [← List.append_assoc] at hq
  have := List.append_cancel_right hq
  subst this
  rw [List.map_append, hp] at hv
  obtain ⟨a, b, rfl, h1, h2⟩ := List.map_eq_append_iff.1 hv.symm
  cases (List.map_inj_right fun _ _ h => Option.some.inj h).1 h1
  exact ⟨b, rfl, y, rfl, h2.symm⟩

theorem rawRun_trim {ra : List Cell} {pc : Option Char} {p r p' e : List Cell} (h : RawRun env fn c ra pc p r p' e)
    (h1 : p <:+ x) (h2 : r <:+ x) : p' <:+ x := by
  have tr : ∀ {pc : Option Char} {t r : List Cell}, t <:+ x → r <:+ x → trimmed pc t r <:+ x := by
    intro pc t r h1 h2
    unfold trimmed
    split <;> assumption
  induction h with
  | eol => exact tr h1 h2
  | stop => exact tr h1 h2
  | ctrlV g1 g2 _ ih => exact ih (g1.suf.trans h2) ((g2.suf.trans g1.suf).trans h2)
  | ctrlVEnd g1 => exact g1.suf.trans h2
  | expr _ g1 g2 g3 _ ih =>
    exact ih (tr h1 h2) (((g3.suf.trans (gram_track (s := false) g2).suffix).trans g1.suf).trans h2)
  | char g1 _ _ _ _ ih => exact ih (tr h1 h2) (g1.suf.trans h2)

end

/-- At `r` there is the name `t` of the command `c`, at `s` there is `t'` instead; the rest is the same. -/
structure Alias (nv : Bool) (env : Env) (t t' : Str) (c : Cmd) (s r : List Cell) : Prop where
  intro ::
  rest : ∃ x u, Reads r t x ∧ Reads s t' x ∧ LineIs x u ∧ Spells nv t u c ∧ Spells nv t' u c
  pos : posOf env s = posOf env r

namespace Alias
variable {nv : Bool} {env : Env} {fn : Str} {cx : Ctx} {b : Option Inner} {used used' : List Str} {t t' : Str} {c : Cmd}
  {s r r' r0 ra rc r1 x : List Cell}

theorem here (w : Alias nv env t t' c s r) : Spec.here env fn s = Spec.here env fn r := by
  unfold Spec.here
  rw [w.pos]

theorem named {ms rg d} (w : Alias nv env t t' c s r) (h : NamedAt nv used r r0 ms rg rc d r1 used') :
    r0 = r ∧ rc = r ∧ d = c ∧ used' = used ∧ Reads r t r1 ∧ Reads s t' r1 ∧ NamedAt nv used s s ms rg s d r1 used := by
  obtain ⟨x, u, h1, h2, h3, h4, h5⟩ := w.rest
  obtain ⟨rfl, rfl, rfl, rfl, rfl, rfl, rfl⟩ := named_spell h4 h1 h3 h
  exact ⟨rfl, rfl, rfl, rfl, h1, h2, spell_named h5 h2 h3 _⟩

theorem argsAt {ea d} (w : Alias nv env t t' c s r) (h : ArgsAt nv env fn used r r0 rc ea d ra used') :
    r0 = r ∧ rc = r ∧ d = c ∧ used' = used ∧ ea.linepos = Spec.here env fn r ∧ ea.cmdpos = Spec.here env fn r ∧
      ArgsAt nv env fn used s s s ea d ra used ∧ ∃ x, ra <:+ x ∧ Reads r t x ∧ Reads s t' x := by
  obtain ⟨ms, rg, r1, b, r2, h1, h2, h3, rfl⟩ := h
  obtain ⟨rfl, rfl, rfl, rfl, h4, h5, h6⟩ := w.named h1
  refine ⟨rfl, rfl, rfl, rfl, rfl, rfl, ⟨ms, rg, r1, b, r2, h6, h2, h3, by rw [w.here]⟩, r1, ?_, h4, h5⟩
  refine List.IsSuffix.trans ?_ h2.adv.suffix
  rcases h3 with ⟨_, rfl⟩ | ⟨_, h3⟩
  · exact List.suffix_refl _
  · exact h3.adv.suffix

theorem headAt {ea d} (w : Alias nv env t t' c s r) (h : HeadAt nv env fn used r r0 rc ea d ra r1 used') :
    r0 = r ∧ rc = r ∧ d = c ∧ used' = used ∧ ea.linepos = Spec.here env fn r ∧ ea.cmdpos = Spec.here env fn r ∧
      HeadAt nv env fn used s s s ea d ra r1 used ∧ ∃ x, r1 <:+ x ∧ ra <:+ x ∧ Reads r t x ∧ Reads s t' x := by
  obtain ⟨ea0, h1, h2⟩ := h
  obtain ⟨rfl, rfl, rfl, rfl, e1, e2, h3, x, h4, h5⟩ := w.argsAt h1
  have h6 := Options.pos h2
  exact ⟨rfl, rfl, rfl, rfl, h6.1.trans e1, h6.2.1.trans e2, ⟨ea0, h3, h2⟩, x, h2.adv.suffix.trans h4, h4, h5⟩

theorem cmdHead {ea d} (w : Alias nv env t t' c s r) (h : CmdHead nv env fn used r r0 ea d ra r1 used') :
    r0 = r ∧ d = c ∧ used' = used ∧ ea.linepos = Spec.here env fn r ∧ ea.cmdpos = Spec.here env fn r ∧
      CmdHead nv env fn used s s ea d ra r1 used ∧ ∃ x, r1 <:+ x ∧ ra <:+ x ∧ Reads r t x ∧ Reads s t' x := by
  obtain ⟨ms, rg, rc, r2, b, r3, h1, h2, h3, h4, h5, h6, h7⟩ := h
  obtain ⟨rfl, rfl, rfl, rfl, e1, e2, ⟨_, ⟨ms', rg', r4, b', r5, g1, g2, g3, rfl⟩, g4⟩, h8⟩ :=
    w.headAt (r0 := r0) (rc := rc) ⟨_, ⟨ms, rg, r2, b, r3, ⟨h1, h2, h3, h4⟩, h5, h6, rfl⟩, h7⟩
  exact ⟨rfl, rfl, rfl, e1, e2, ⟨ms', rg', _, r4, b', r5, g1.1, g1.2.1, g1.2.2.1, g1.2.2.2, g2, g3, g4⟩, h8⟩

theorem text {v : Str} {e : List Cell} (h1 : Reads r t x) (h2 : Reads s t' x) (h : Reads r v e) (he : e <:+ x) :
    ∃ w, v = t ++ w ∧ Reads s (t' ++ w) e := by
  obtain ⟨w, rfl, h3⟩ := text_after h1 h he
  exact ⟨w, rfl, h2.append h3⟩

theorem rawText {f : Bool} {v : Str} (h1 : Reads r t x) (h2 : Reads s t' x) (h0 : r1 <:+ x)
    (h : RawText env fn c f r ra r1 v r') : ∃ w, v = t ++ w ∧ RawText env fn c f s ra r1 (t' ++ w) r' := by
  cases h with
  | bar g1 g2 g3 g4 g5 g6 =>
    rename_i r2 p
    have h3 : r2 <:+ x := by
      by_cases hc : c.name ∈ grepCmds
      · exact (g3 hc).adv.suffix.trans h0
      · rw [g4 hc]; exact h0
    obtain ⟨w, rfl, h4⟩ := text h1 h2 g6 (by
      split
      · exact (rawRun_suffix g5).trans h3
      · exact rawRun_trim g5 h3 h3)
    exact ⟨w, rfl, .bar g1 g2 g3 g4 g5 h4⟩
  | line g1 g2 g3 =>
    obtain ⟨w, rfl, h4⟩ := text h1 h2 g3 (g2.1.suf.trans h0)
    exact ⟨w, rfl, .line g1 g2 h4⟩

theorem intercalate_cons (l : Str) (ls : List Str) (t : Str) :
    List.intercalate ['\n'] ((t ++ l) :: ls) = t ++ List.intercalate ['\n'] (l :: ls) := by
  cases ls <;> simp [List.intercalate, List.intersperse]

theorem line_rest {v : Str} {e : Cell} {r2 : List Cell} (h1 : Reads r t x) (h : Reads r v (e :: r2)) (he : e.c = none) :
    e :: r2 <:+ x := by
  obtain ⟨p, rfl, hp⟩ := h1
  obtain ⟨q, hq, hv⟩ := h
  rcases List.append_eq_append_iff.1 hq with ⟨a, rfl, h3⟩ | ⟨a, rfl, h3⟩
  · exact ⟨a, h3.symm⟩
  · cases a with
    | nil => rw [h3]; exact List.suffix_refl _
    | cons y a =>
      injection h3 with h3 h4
      subst h3
      have : none ∈ (q ++ e :: a).map Cell.c := by simp [he]
      rw [hp] at this
      simp at this

theorem blockOf {m v : Str} (h1 : Reads r t x) (h2 : Reads s t' x) (h : BlockOf r m v r') :
    ∃ w, v = t ++ w ∧ BlockOf s m (t' ++ w) r' := by
  obtain ⟨l, e, r2, ls, h3, h4, h5, rfl⟩ := h
  obtain ⟨w, rfl, h6⟩ := text h1 h2 h3 (line_rest h1 h3 h4)
  exact ⟨List.intercalate ['\n'] (w :: ls), intercalate_cons .., t' ++ w, e, r2, ls, h6, h4, h5, (intercalate_cons ..).symm⟩

theorem raw {f top : Bool} {v : Str} (h1 : Reads r t x) (h2 : Reads s t' x) (h0 : r1 <:+ x)
    (h : Raw env fn top r ra f c r1 v r') : ∃ w, v = t ++ w ∧ Raw env fn top s ra f c r1 (t' ++ w) r' := by
  cases h with
  | common g1 g2 =>
    obtain ⟨w, e, h3⟩ := rawText h1 h2 h0 g2
    exact ⟨w, e, .common g1 h3⟩
  | finish g1 g2 g3 =>
    obtain ⟨w, e, h3⟩ := rawText h1 h2 h0 g3
    exact ⟨w, e, .finish g1 g2 h3⟩
  | finishTop g1 g2 g3 =>
    obtain ⟨w, e, h3⟩ := rawText h1 h2 h0 g3
    exact ⟨w, e, .finishTop g1 g2 h3⟩
  | append g1 g2 =>
    obtain ⟨w, e, h3⟩ := blockOf h1 h2 g2
    exact ⟨w, e, .append g1 h3⟩
  | keymap g1 g2 g3 =>
    cases g3 with
    | nil => exact absurd rfl g2
    | cons g3 g4 g5 =>
      obtain ⟨w, rfl, h3⟩ := text h1 h2 g3 (line_rest h1 g3 g4)
      refine ⟨_, intercalate_cons .., ?_⟩
      rw [← intercalate_cons]
      exact .keymap g1 (by simp) (.cons h3 g4 g5)
  | script g1 g2 g3 g4 g5 g6 =>
    obtain ⟨w, e, h3⟩ := blockOf h1 h2 g6
    exact ⟨w, e, .script g1 g2 g3 g4 g5 h3⟩
  | scriptLine g1 g2 g3 g4 =>
    obtain ⟨w, e, h3⟩ := text h1 h2 g4.1 (h1.adv.rest_suffix g4)
    exact ⟨w, e, .scriptLine g1 g2 g3 ⟨h3, g4.2⟩⟩
  | wincmd g1 g2 g3 g4 g5 =>
    obtain ⟨w, e, h3⟩ := text h1 h2 g3 (g2.adv.suffix.trans h0)
    exact ⟨w, e, .wincmd g1 g2 h3 g4 g5⟩
  | «syntax» g1 g2 g3 =>
    obtain ⟨w, e, h3⟩ := text h1 h2 g3 (g2.adv.suffix.trans h0)
    exact ⟨w, e, .syntax g1 g2 h3⟩

theorem simple {ea xs q} (h1 : Reads r t x) (h2 : Reads s t' x) (h0 : r1 <:+ x) (e1 : ea.linepos = q) (e2 : ea.cmdpos = q)
    (h : Spec.Simple env fn cx r ra ea c r1 xs r') :
    ∃ xs', RespelledL q t t' xs xs' ∧ Spec.Simple env fn cx s ra ea c r1 xs' r' := by
  have one : ∀ w, RespelledL q t t' [.excmd ea.cmdpos ea (t ++ w)] [.excmd ea.cmdpos ea (t' ++ w)] := by
    intro w
    rw [e2]
    exact .cons (.text e1 e2) .nil
  cases h with
  | raw g1 =>
    obtain ⟨w, rfl, h3⟩ := raw h1 h2 h0 g1
    exact ⟨_, one w, .raw h3⟩
  | funcListing g1 g2 g3 =>
    obtain ⟨w, rfl, h3⟩ := rawText h1 h2 h0 g3
    exact ⟨_, one w, .funcListing g1 g2 h3⟩
  | letListing g1 g2 g3 =>
    obtain ⟨w, rfl, h3⟩ := rawText h1 h2 h0 g3
    exact ⟨_, one w, .letListing g1 g2 h3⟩
  | constListing g1 g2 g3 =>
    obtain ⟨w, rfl, h3⟩ := rawText h1 h2 h0 g3
    exact ⟨_, one w, .constListing g1 g2 h3⟩
  | delfunction g1 g2 => exact ⟨_, .refl .., .delfunction g1 g2⟩
  | return_ g1 g2 g3 g4 g5 => exact ⟨_, .refl .., .return_ g1 g2 g3 g4 g5⟩
  | returnNone g1 g2 g3 g4 => exact ⟨_, .refl .., .returnNone g1 g2 g3 g4⟩
  | call g1 g2 g3 g4 => exact ⟨_, .refl .., .call g1 g2 g3 g4⟩
  | let_ g1 g2 g3 g4 g5 g6 => exact ⟨_, .refl .., .let_ g1 g2 g3 g4 g5 g6⟩
  | heredoc g1 g2 g3 g4 g5 g6 => exact ⟨_, .refl .., .heredoc g1 g2 g3 g4 g5 g6⟩
  | const_ g1 g2 g3 g4 => exact ⟨_, .refl .., .const_ g1 g2 g3 g4⟩
  | unlet g1 g2 => exact ⟨_, .refl .., .unlet g1 g2⟩
  | lockvar g1 g2 g3 => exact ⟨_, .refl .., .lockvar g1 g2 g3⟩
  | unlockvar g1 g2 g3 => exact ⟨_, .refl .., .unlockvar g1 g2 g3⟩
  | continue_ g1 g2 => exact ⟨_, .refl .., .continue_ g1 g2⟩
  | break_ g1 g2 => exact ⟨_, .refl .., .break_ g1 g2⟩
  | throw g1 g2 => exact ⟨_, .refl .., .throw g1 g2⟩
  | eval g1 g2 => exact ⟨_, .refl .., .eval g1 g2⟩
  | echo g1 g2 => exact ⟨_, .refl .., .echo g1 g2⟩
  | echohl g1 g2 => exact ⟨_, .refl .., .echohl g1 g2⟩
  | execute g1 g2 => exact ⟨_, .refl .., .execute g1 g2⟩

theorem opens {α : Type} {n : Str} {A : List Cell → α → List Cell → Prop} {ea a cm} (w : Alias nv env t t' c s r)
    (h : Spec.Opens nv env fn n A used r ea a cm used' r') : Spec.Opens nv env fn n A used s ea a cm used' r' := by
  obtain ⟨r0, d, ra, r1, r2, h0, h1, h2⟩ := h
  obtain ⟨rfl, rfl, rfl, _, _, h3, _⟩ := w.cmdHead h1
  exact ⟨s, d, ra, r1, r2, h0, h3, h2⟩

theorem closes {n e} (w : Alias nv env t t' c s r) (h : Closes nv env fn n used r e used' r') :
    Closes nv env fn n used s e used' r' := by
  obtain ⟨r0, ea, d, ra, r1, h0, h1, h2⟩ := h
  obtain ⟨rfl, rfl, rfl, _, _, h3, _⟩ := w.cmdHead h1
  exact ⟨s, ea, d, ra, r1, h0, h3, h2⟩

theorem ifPart {used' r' ea ss y eis} (w : Alias nv env t t' c s r) : IfPart nv env fn cx used r ea ss y eis used' r' →
    IfPart nv env fn cx used s ea ss y eis used' r'
  | .if_ h1 h2 => .if_ (w.opens h1) h2
  | .elseif h1 h2 h3 => .elseif (w.ifPart h1) h2 h3

theorem tryPart {used' r' ea ss cs} (w : Alias nv env t t' c s r) : TryPart nv env fn cx used r ea ss cs used' r' →
    TryPart nv env fn cx used s ea ss cs used' r'
  | .try_ h1 h2 => .try_ (w.opens h1) h2
  | .catch_ h1 h2 h3 => .catch_ (w.tryPart h1) h2 h3

theorem block {x} (w : Alias nv env t t' c s r) : Block nv env fn cx used r x used' r' → Block nv env fn cx used s x used' r'
  | .function h1 h2 h3 => .function (w.opens h1) h2 h3
  | .while_ h1 h2 h3 => .while_ (w.opens h1) h2 h3
  | .for_ h1 h2 h3 => .for_ (w.opens h1) h2 h3
  | .if_ h1 h2 => .if_ (w.ifPart h1) h2
  | .ifElse h1 h2 h3 h4 => .ifElse (w.ifPart h1) h2 h3 h4
  | .try_ h1 h2 => .try_ (w.tryPart h1) h2
  | .tryFinally h1 h2 h3 h4 => .tryFinally (w.tryPart h1) h2 h3 h4

/-- Before the name there is nothing. -/
theorem start (w : Alias nv env t t' c s r) : ¬ StartsWith r cs!"#!" ∧ SkipC r r ∧ ¬ AtEnd r ∧ headSym r ≠ .ch '"' ∧
    ∀ {r0 ms rg rc}, Before r r0 ms rg rc → rc = r := by
  obtain ⟨x, u, h1, h2, h3, h4, h5⟩ := w.rest
  have h := spell_before h4 h1 h3
  exact ⟨h.1, h.2.1, h.2.2.1, h.2.2.2.1, fun hb => (before_spell h4 h1 h3 hb).2.2.2⟩

/-- Lines, if there are any. -/
theorem body {used' r' ss} (w : Alias nv env t t' c s r) : Body nv env fn cx used r ss used' r' →
    (ss = [] ∧ used' = used ∧ r' = r) ∨
      ∃ ss', RespelledL (Spec.here env fn r) t t' ss ss' ∧ Body nv env fn cx used s ss' used' r'
  | .nil => .inl ⟨rfl, rfl, rfl⟩
  | .shebang h h1 h2 h3 => by
    rcases w.body h with ⟨rfl, rfl, rfl⟩ | ⟨ss, hr, h⟩
    · exact absurd h1 w.start.1
    · exact .inr ⟨ss, hr, .shebang h h1 h2 h3⟩
  | .empty h h2 h3 => by
    rcases w.body h with ⟨rfl, rfl, rfl⟩ | ⟨ss, hr, h⟩
    · obtain ⟨_, e1, e2, _⟩ := w.start
      rw [← h2.det e1] at e2
      exact absurd (.inl (by simp [headSym, Cell.sym, h3])) e2
    · exact .inr ⟨ss, hr, .empty h h2 h3⟩
  | .comment h h2 h3 => by
    rcases w.body h with ⟨rfl, rfl, rfl⟩ | ⟨ss, hr, h⟩
    · obtain ⟨_, e1, _, e2, _⟩ := w.start
      cases h2.det e1
      cases h3 with
      | mk h3 => exact absurd (reads_head h3) e2
    · exact .inr ⟨_, hr.append (.refl ..), .comment h h2 h3⟩
  | .noCommand h h1 h2 h3 h4 => by
    rcases w.body h with ⟨rfl, rfl, rfl⟩ | ⟨ss, hr, h⟩
    · obtain ⟨_, _, e1, e2, e3⟩ := w.start
      cases e3 h1
      exact (h2.elim e1 e2).elim
    · exact .inr ⟨_, (hr.append (.refl ..)).append (.refl ..), .noCommand h h1 h2 h3 h4⟩
  | .simple h h1 h2 h3 => by
    rcases w.body h with ⟨rfl, rfl, rfl⟩ | ⟨ss, hr, h⟩
    · obtain ⟨rfl, rfl, rfl, e1, e2, h4, x, h5, h6, h7, h8⟩ := w.cmdHead h1
      obtain ⟨xs, hr, h9⟩ := simple h7 h8 h5 e1 e2 h2
      exact .inr ⟨[] ++ xs ++ _, hr.append (.refl ..), .simple .nil h4 h9 h3⟩
    · exact .inr ⟨_, (hr.append (.refl ..)).append (.refl ..), .simple h h1 h2 h3⟩
  | .block h h1 h2 => by
    rcases w.body h with ⟨rfl, rfl, rfl⟩ | ⟨ss, hr, h⟩
    · exact .inr ⟨_, .refl .., .block .nil (w.block h1) h2⟩
    · exact .inr ⟨_, (hr.append (.refl ..)).append (.refl ..), .block h h1 h2⟩

theorem headErr {m q} (w : Alias nv env t t' c s r) (h : HeadErr nv env fn used r m q) : HeadErr nv env fn used s m q := by
  have hp := w.pos
  cases h with
  | range h1 h2 h3 h4 h5 h6 h7 =>
    obtain ⟨x, u, g1, g2, g3, g4, g5⟩ := w.rest
    cases h2.det w.start.2.1
    obtain ⟨rfl, rfl⟩ := spell_mods g4 g1 g3 h5
    obtain ⟨y, hy, hh⟩ := spell_head g4 g1
    exact absurd h7 (letter_noErr hy hh)
  | name h1 h2 h3 h4 h5 =>
    obtain ⟨x, u, g1, g2, g3, g4, g5⟩ := w.rest
    cases w.start.2.2.2.2 h1
    exact absurd (spell_named g4 g1 g3 used).2.2.2 (h4 _ _ _)
  | bang h1 h2 h3 h4 h5 =>
    obtain ⟨rfl, rfl, rfl, rfl, _, _, h6⟩ := w.named h1
    rw [← hp]
    exact .bang h6 h2 h3 h4 h5
  | argOpt h1 h2 h3 =>
    obtain ⟨rfl, rfl, rfl, rfl, _, _, h6, _⟩ := w.argsAt h1
    exact .argOpt h6 h2 h3
  | write h1 h2 h3 h4 h5 =>
    obtain ⟨rfl, rfl, rfl, rfl, _, _, h6, _⟩ := w.argsAt h1
    rw [← hp]
    exact .write h6 h2 h3 h4 h5

theorem argsDone {ea} (h1 : Reads r t x) (h2 : Reads s t' x) (h0 : r1 <:+ x)
    (h : ArgsDone env fn cx r ra ea c r1 r') (e : ea.linepos = ea.cmdpos) : ArgsDone env fn cx s ra ea c r1 r' := by
  cases h with
  | simple h =>
    obtain ⟨_, _, h⟩ := simple h1 h2 h0 e rfl h
    exact .simple h
  | function g1 g2 => exact .function g1 g2
  | expr g1 g2 => exact .expr g1 g2
  | for_ g1 g2 => exact .for_ g1 g2
  | catch_ g1 g2 => exact .catch_ g1 g2
  | endfunction g1 g2 => exact .endfunction g1 g2
  | none g1 => exact .none g1

theorem lineErr {m q} (w : Alias nv env t t' c s r) (h : LineErr nv env fn cx b used r m q) :
    LineErr nv env fn cx b used s m q := by
  have hp := w.pos
  cases h with
  | head h => exact .head (w.headErr h)
  | place h1 h2 =>
    obtain ⟨rfl, rfl, rfl, rfl, _, _, h6, _⟩ := w.headAt h1
    rw [← hp]
    exact .place h6 h2
  | args h1 h2 h3 =>
    obtain ⟨rfl, rfl, rfl, rfl, _, _, h6, _⟩ := w.headAt h1
    exact .args h6 h2 h3
  | trail h1 h2 h3 h4 =>
    obtain ⟨rfl, rfl, rfl, rfl, e1, e2, h6, x, h7, h8, h9, h10⟩ := w.headAt h1
    exact .trail h6 h2 (argsDone h9 h10 h7 h3 (e1.trans e2.symm)) h4

theorem lineNum (w : Alias nv env t t' c s r) (h : LineNum nv env fn used r) : LineNum nv env fn used s := by
  cases h with
  | mods h1 h2 h3 h4 h5 h6 =>
    obtain ⟨x, u, g1, g2, g3, g4, g5⟩ := w.rest
    cases h2.det w.start.2.1
    obtain ⟨rfl, rfl⟩ := spell_mods g4 g1 g3 h5
    exact absurd (by simp [CountsOK]) h6
  | depth h1 h2 h3 h4 h5 =>
    obtain ⟨rfl, rfl, rfl, rfl, _, _, h6, _⟩ := w.headAt h1
    exact .depth h6 h2 h3 h4 h5

end Alias
end Viml
