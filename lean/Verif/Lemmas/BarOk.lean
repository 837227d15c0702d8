/-
Lines after which a bar is as good as the end of the line (`BarOk`).
-/
import Verif.Lemmas.BarsAt
import Verif.Lemmas.PhraseIn
import Verif.Lemmas.Holder
import Verif.Lemmas.Suffix
import Verif.Lemmas.Insert
import Verif.Lemmas.Mods

namespace Viml
open Spec
variable {env : Env} {fn : Str} {c : Cmd} {s l : Str} {e : Ast.Expr} {N K C O : Nat} {e0 : Cell} {Q r r1 r' : List Cell}

/-! ### Lines without `"` and bar -/

/-- The characters of the line. -/
theorem in_char {κ : Hang env env fn fn} {v : Str} {y : Char} (h : Reads r v (κ.e0 :: κ.q0)) (hr : r' <:+ r) (hi : κ.In r')
    (hy : headSym r' = .ch y) : y ∈ v := by
  obtain ⟨p, rfl, hp⟩ := h
  obtain ⟨t, ht⟩ := hr
  have hl := hi.length
  cases r' with
  | nil => cases hy
  | cons d r' =>
    rcases List.append_eq_append_iff.1 ht with ⟨a, rfl, ha⟩ | ⟨a, rfl, ha⟩
    · cases a with
      | nil =>
        cases ha
        simp [headSym, Cell.sym, κ.nl] at hy
      | cons b a =>
        cases ha
        have : some y ∈ v.map some := by
          rw [← hp]
          simp only [headSym, Cell.sym] at hy
          cases hd : d.c with
          | none => rw [hd] at hy; cases hy
          | some z =>
            rw [hd] at hy
            cases hy
            simp [hd]
        simpa using this
    · have : (κ.e0 :: κ.q0).length = (a ++ d :: r').length := by rw [ha]
      simp only [List.length_append, List.length_cons] at this hl
      have ha0 : a = [] := List.eq_nil_of_length_eq_zero (by omega)
      subst ha0
      cases ha
      simp [headSym, Cell.sym, κ.nl] at hy

/-- The command on a line without `"` and bar. -/
theorem quiet_trail {κ : Hang env env fn fn} (hb : κ.Stops) {cm : List Ast.Stmt} {v : Str} {x : List Cell}
    (h1 : '"' ∉ v) (h2 : '|' ∉ v) (hv : Reads x v (κ.e0 :: κ.q0)) (hr : r <:+ x) (hi : κ.In r) (ht : Trail env fn r cm r') :
    cm = [] ∧ r' = κ.q0 := by
  have key : ∀ {r1}, Skip r r1 → κ.In r1 ∧ r1 <:+ x := fun h =>
    ⟨(Hang.skip hb hi h).1, by obtain ⟨w, ⟨p, rfl, _⟩, _⟩ := h; exact (List.suffix_append p _).trans hr⟩
  cases ht with
  | eof h => exact absurd rfl (Hang.not_nil (key h).1)
  | eol h h3 =>
    have := (Hang.atEnd_iff (key h).1).1 (.inl (by simp [headSym, Cell.sym, h3]))
    cases this
    exact ⟨rfl, rfl⟩
  | bar h h3 => exact absurd (in_char hv (key h).2 (key h).1 (reads_head h3)) h2
  | comment h h3 =>
    cases h3 with
    | mk h3 => exact absurd (in_char hv (key h).2 (key h).1 (reads_head h3)) h1

theorem leaves_exprs {es : List Ast.Expr} (h : Exprs env fn r es r') : r' <:+ r := by
  induction h with
  | nil h => exact h.adv.suffix
  | cons h _ h2 _ ih => exact (ih.trans (leaves_gram h2)).trans h.adv.suffix

theorem leaves_targets {es : List Ast.Expr} (h : Targets env fn r es r') : r' <:+ r := by
  induction h with
  | nil h => exact h.adv.suffix
  | cons h _ h2 _ ih => exact (ih.trans (leaves_target h2)).trans h.adv.suffix

theorem leaves_lock {es : List Ast.Expr} (h : LockArgs env fn r es r') : r' <:+ r := by
  cases h with
  | mk h1 h2 => exact (leaves_targets h2).trans (leaves_gram h1)

theorem leaves_simple {cx : Ctx} {r0 ra : List Cell} {ea : Ast.ExArg} {ss : List Ast.Stmt} (hc : c.name ∈ barCmds)
    (h1 : c.name ≠ cs!"let") (h2 : c.name ≠ cs!"const") (h : Spec.Simple env fn cx r0 ra ea c r ss r') : r' <:+ r := by
  have hno : ∀ {n : Str}, c.name = n → n ∉ barCmds → False := fun e hn => hn (e ▸ hc)
  cases h with
  | raw g =>
    exfalso
    cases g with
    | common g => exact g (bar_parsed _ hc)
    | finish g => exact hno g (by decide)
    | finishTop g => exact hno g (by decide)
    | append g => rcases g with g | g <;> exact hno g (by decide)
    | keymap g => exact hno g (by decide)
    | script g => exact bar_script _ hc g
    | scriptLine g => exact bar_script _ hc g
    | wincmd g => exact hno g (by decide)
    | «syntax» g => exact hno g (by decide)
  | funcListing g => exact (hno g (by decide)).elim
  | delfunction g => exact (hno g (by decide)).elim
  | return_ _ _ a _ b => exact (leaves_gram b).trans a.adv.suffix
  | returnNone _ _ a => exact a.adv.suffix
  | call _ a _ b => exact (leaves_gram b).trans a.adv.suffix
  | letListing g => exact absurd g h1
  | let_ g => exact absurd g h1
  | heredoc g => exact absurd g h1
  | constListing g => exact absurd g h2
  | const_ g => exact absurd g h2
  | unlet _ a => exact leaves_lock a
  | lockvar _ a b => exact (leaves_lock b).trans a.adv.suffix
  | unlockvar _ a b => exact (leaves_lock b).trans a.adv.suffix
  | continue_ => exact List.suffix_rfl
  | break_ => exact List.suffix_rfl
  | throw _ a => exact leaves_gram a
  | eval _ a => exact leaves_gram a
  | echo _ a => exact leaves_exprs a
  | echohl _ a => exact a.adv.suffix
  | execute _ a => exact leaves_exprs a

theorem leaves_for' {a} (h : ForArgs env fn r a r') : r' <:+ r := by
  cases h with
  | mk a b c d => exact (((leaves_gram d).trans c.adv.suffix).trans b.adv.suffix).trans (leaves_lhs leaves_target a)

theorem args_in {κ : Hang env env fn fn} (hb : κ.Stops) (hq : headSym κ.q = .ch '"' → c.name ∈ noteCmds ∧
      (c.name = cs!"return" → ∀ r1, Skip r r1 → ¬ (AtEnd r1 ∨ headSym r1 = .ch '|'))) {cx : Ctx} {r0 ra : List Cell} {ea : Ast.ExArg}
    (hc : c.name ∈ barCmds) (h1 : c.name ≠ cs!"let") (h2 : c.name ≠ cs!"const") (hi : κ.In r)
    (h : ArgsDone env fn cx r0 ra ea c r r') : κ.In r' ∧ r' <:+ r := by
  have hno : ∀ {n : Str}, c.name = n → n ∉ barCmds → False := fun e hn => hn (e ▸ hc)
  cases h with
  | simple h =>
    exact ⟨(Hang.simple (s0 := []) (sa := []) hb hc hq ⟨fun e => absurd e (by simp [h1, h2]), fun e => absurd e h1,
      fun e => absurd e h2⟩ hi h).1, leaves_simple hc h1 h2 h⟩
  | function g => exact (hno g (by decide)).elim
  | expr _ g => exact ⟨(Hang.gram g hi).1, leaves_gram g⟩
  | for_ _ g => exact ⟨(Hang.forArgs hb hi g).1, leaves_for' g⟩
  | catch_ g => exact (hno g (by decide)).elim
  | endfunction g => exact (hno g (by decide)).elim
  | none => exact ⟨hi, List.suffix_rfl⟩

theorem barOk_quiet (hc : c.name ∈ barCmds) (h1 : c.name ≠ cs!"let") (h2 : c.name ≠ cs!"const") (h3 : '"' ∉ s) (h4 : '|' ∉ s) :
    BarOk fn c s := by
  intro env N K C O x κ he hx hb hq hi _ b r2 ra hB hS
  refine ⟨⟨fun e => absurd e (by simp [h1, h2]), fun e => absurd e h1, fun e => absurd e h2⟩, ?_⟩
  intro cx r ea r3 cm r' h5 h6
  have i2 := (Hang.bang hb hi hB).1
  have i3 := (Hang.skip hb i2 hS).1
  obtain ⟨i4, s4⟩ := args_in hb (fun h => ⟨(hq h).1, fun e _ => (hq h).2 e hB hS⟩) hc h1 h2 i3 h5
  exact quiet_trail hb h3 h4 ⟨_, hx, by rw [reindex_text, lineCells_text]⟩
    ((s4.trans (Leaves.leaves hS)).trans (Leaves.leaves hB)) i4 h6

/-! ### Expressions -/

/-- The place of the line `l` on a longer line. -/
def lastHang (env : Env) (fn : Str) (N K C O : Nat) (l : Str) (Q : List Cell) : Hang (mkEnv [l]) env [] fn where
  e0 := ⟨none, posn l⟩
  q0 := []
  q := ⟨none, ⟨N + l.length, K, C + bytesLen l + 1, O + bytesLen l⟩⟩ :: Q
  f c := ⟨c.c, ⟨c.pos.i + N, K, c.pos.col + C, c.pos.offset + O⟩⟩
  m q := ⟨q.offset + O, K, q.column + C, fn⟩
  t := ⟨.eol, cs!"<EOL>", ⟨N + l.length, K, C + bytesLen l + 1, O + bytesLen l⟩⟩
  t' := Q
  nl := rfl
  char _ := rfl
  pos _ := rfl
  pend := by
    simp only [posOf, pubPos, posn, bytesLen_eq, Ast.Pos.mk.injEq, true_and, and_true]
    omega
  head_q := .inl rfl
  tok := .eol [] _ ⟨none, _⟩ _ ⟨[], rfl, rfl⟩ (by simp) rfl
  closing := by simp [Closing]

theorem lastHang_tr : ∀ (v u : Str), u ++ v = l → (lastHang env fn N K C O l Q).tr (lineAt u v) =
    reindex (N + u.length) (lineCells K (C + bytesLen u) (O + bytesLen u) v) ++ (lastHang env fn N K C O l Q).q
  | [], u, h => by simp [Hang.tr, lastHang, lineAt, lineCells, reindex]
  | c :: v, u, h => by
    have ih := lastHang_tr v (u ++ [c]) (by simpa using h)
    have hl : (lineAt (u ++ [c]) v).length = v.length + 1 := by
      have : ∀ (v u : Str), (lineAt u v).length = v.length + 1 := by
        intro v
        induction v with
        | nil => intro u; rfl
        | cons c v ih => intro u; simp [lineAt, ih]
      exact this v _
    unfold Hang.tr at ih ⊢
    simp only [lineAt, List.length_cons, hl] at ih ⊢
    have h0 : (lastHang env fn N K C O l Q).q0.length = 0 := rfl
    rw [h0] at ih ⊢
    rw [show v.length + 1 + 1 - (0 + 1) = (v.length + 1 - (0 + 1)) + 1 by omega]
    simp only [List.take_succ_cons, List.map_cons, List.cons_append, ih, lineCells, reindex, bytesLen_append, bytesLen,
      List.length_append, List.length_nil, List.length_cons]
    simp only [lastHang, posn, bytesLen_eq, Nat.add_assoc, Nat.add_zero, List.cons.injEq, Cell.mk.injEq, Pos.mk.injEq, true_and,
      and_true]
    omega

theorem lastHang_in : ∀ (v u : Str), u ++ v = l → (lastHang env fn N K C O l Q).In (lineAt u v)
  | [], u, h => by
    have e : u = l := by simpa using h
    rw [e]
    exact .stop
  | c :: v, u, h => .cons (x := c) rfl (.inl rfl) (lastHang_in v (u ++ [c]) (by simpa using h))

/-- A phrase at the end of a line. -/
theorem Spec.Phrase.at_end (h : Phrase l e) (he : e0 = ⟨none, ⟨N + l.length, K, C + bytesLen l + 1, O + bytesLen l⟩⟩) :
    ∃ e' r', Gram env fn 1 (reindex N (lineCells K C O l) ++ e0 :: Q) e' r' ∧ Blanks r' (e0 :: Q) := by
  subst he
  obtain ⟨r', w, c, h1, h2, h3, h4⟩ := h
  rw [cut_buf] at h1
  obtain ⟨i, h5⟩ := Hang.gram (κ := lastHang env fn N K C O l Q) h1 (lastHang_in l [] rfl)
  rw [lastHang_tr (l := l) l [] rfl] at h5
  obtain ⟨i2, h6⟩ := Hang.reads i h2
  have e2 : [c] = (lastHang env fn N K C O l Q).e0 :: [] := (Hang.atEnd_iff i2).1 (.inl (by simp [headSym, Cell.sym, h4]))
  rw [e2] at h6
  have e3 : (lastHang env fn N K C O l Q).tr [(lastHang env fn N K C O l Q).e0] = (lastHang env fn N K C O l Q).q :=
    Hang.tr_end (κ := lastHang env fn N K C O l Q)
  rw [e3] at h6
  exact ⟨_, _, by simpa [bytesLen] using (show Gram env fn 1 (_ ++ ⟨none, ⟨N + l.length, K, C + bytesLen l + 1, O + bytesLen l⟩⟩ :: Q) _ _ from h5), w, h6, h3⟩

/-- What follows a command at the end of a line. -/
theorem trail_end {cm : List Ast.Stmt} (he : e0.c = none) (h : Blanks r (e0 :: Q)) (ht : Trail env fn r cm r') :
    cm = [] ∧ r' = Q := by
  have hs : Skip r (e0 :: Q) := by
    obtain ⟨w, h1, h2⟩ := h
    exact ⟨w, h1, h2, by simp [headSym, Cell.sym, he, Sym.is]⟩
  have hh : ∀ x, headSym (e0 :: Q) ≠ .ch x := by simp [headSym, Cell.sym, he]
  cases ht with
  | eof h => cases h.det hs
  | eol h => cases h.det hs; exact ⟨rfl, rfl⟩
  | bar h h3 => cases h.det hs; exact absurd (reads_head h3) (hh _)
  | comment h h3 =>
    cases h.det hs
    cases h3 with
    | mk h3 => exact absurd (reads_head h3) (hh _)

theorem exprs_end {es : List Ast.Expr} (he : e0.c = none) (h : Blanks r (e0 :: Q)) (ht : Exprs env fn r es r') : r' = e0 :: Q := by
  have hs : Skip r (e0 :: Q) := by
    obtain ⟨w, h1, h2⟩ := h
    exact ⟨w, h1, h2, by simp [headSym, Cell.sym, he, Sym.is]⟩
  cases ht with
  | nil h => exact h.det hs
  | cons h h2 =>
    cases h.det hs
    exact absurd (.inl (.inl (by simp [headSym, Cell.sym, he]))) h2

theorem phrase_bar : ∀ n ∈ phraseCmds, n ∈ barCmds := by decide

theorem args_phrase {cx : Ctx} {r0 ra : List Cell} {ea : Ast.ExArg} (hc : c.name ∈ phraseCmds)
    (h : ArgsDone env fn cx r0 ra ea c r r') : (∃ r1 e, Skip r r1 ∧ Gram env fn 1 r1 e r') ∨ (∃ e, Gram env fn 1 r e r') ∨
      (∃ es, Exprs env fn r es r') ∨ (Skip r r' ∧ (AtEnd r' ∨ headSym r' = .ch '|')) := by
  have hno : ∀ {n : Str}, c.name = n → n ∉ phraseCmds → False := fun e hn => hn (e ▸ hc)
  cases h with
  | simple h =>
    cases h with
    | raw g =>
      exfalso
      have hc := phrase_bar _ hc
      cases g with
      | common g => exact g (bar_parsed _ hc)
      | finish g => exact hno g (by decide)
      | finishTop g => exact hno g (by decide)
      | append g => rcases g with g | g <;> exact hno g (by decide)
      | keymap g => exact hno g (by decide)
      | script g => exact bar_script _ hc g
      | scriptLine g => exact bar_script _ hc g
      | wincmd g => exact hno g (by decide)
      | «syntax» g => exact hno g (by decide)
    | return_ _ _ a _ b => exact .inl ⟨_, _, a, b⟩
    | returnNone _ _ a b => exact .inr (.inr (.inr ⟨a, b⟩))
    | call _ a _ b => exact .inl ⟨_, _, a, b⟩
    | throw _ a => exact .inr (.inl ⟨_, a⟩)
    | eval _ a => exact .inr (.inl ⟨_, a⟩)
    | echo _ a => exact .inr (.inr (.inl ⟨_, a⟩))
    | execute _ a => exact .inr (.inr (.inl ⟨_, a⟩))
    | _ g => exact (hno g (by decide)).elim
  | expr _ g => exact .inr (.inl ⟨_, g⟩)
  | none g => exact absurd hc (by
      have : ∀ n ∈ [cs!"else", cs!"endif", cs!"endwhile", cs!"endfor", cs!"try", cs!"finally", cs!"endtry"], n ∉ phraseCmds := by decide
      exact this _ g)
  | _ g => exact (hno g (by decide)).elim

theorem barOk_phrase (hc : c.name ∈ phraseCmds) (h : Phrase l e) : BarOk fn c (' ' :: l) := by
  intro env N K C O x κ he hx hb hq hi ow b r2 ra hB hS
  have h1 : c.name ≠ cs!"let" := fun e => absurd (e ▸ hc) (by decide)
  have h2 : c.name ≠ cs!"const" := fun e => absurd (e ▸ hc) (by decide)
  refine ⟨⟨fun e => absurd e (by simp [h1, h2]), fun e => absurd e h1, fun e => absurd e h2⟩, ?_⟩
  intro cx r ea r3 cm r' h5 h6
  have hr : runeLen ' ' = 1 := by decide
  obtain ⟨e', y, g1, g2⟩ := h.at_end (env := env) (fn := fn) (N := N + 1) (K := K) (C := C + 1) (O := O + 1) (Q := κ.q0)
    (e0 := κ.e0) (by
      rw [he]
      simp only [List.length_cons, bytesLen, hr, Cell.mk.injEq, Pos.mk.injEq, true_and]
      omega)
  simp only [lineCells, reindex, hr, List.cons_append] at hx
  have hB : r2 = x := by
    cases hB with
    | yes hB =>
      have := reads_head hB
      rw [hx] at this
      cases this
    | no => rfl
  subst hB
  have hb0 : Blanks r2 (reindex (N + 1) (lineCells K (C + 1) (O + 1) l) ++ κ.e0 :: κ.q0) := ⟨[' '], ⟨[_], hx, rfl⟩, by decide⟩
  have g1 := gram_lead g1 hb0
  have hS' : Skip ra ra := by
    obtain ⟨w, _, _, h⟩ := hS
    exact skip_self h
  have key : ∀ {e r1}, Gram env fn 1 ra e r1 → r1 = y := fun g => ow.gram List.suffix_rfl (gram_lead g hS.blanks) g1
  rcases args_phrase hc h5 with ⟨r1, e1, a1, a2⟩ | ⟨e1, a2⟩ | ⟨es, a2⟩ | ⟨a1, a2⟩
  · cases a1.det hS'
    cases key a2
    exact trail_end κ.nl g2 h6
  · cases key a2
    exact trail_end κ.nl g2 h6
  · cases a2 with
    | nil a1 a2 =>
      cases a1.det hS'
      rcases a2 with a2 | a2
      · have i3 := (Hang.skip hb hi hS).1
        rw [(Hang.atEnd_iff i3).1 a2] at h6
        exact trail_end κ.nl ⟨[], Reads.nil _, by simp⟩ h6
      · obtain ⟨w, b1, b2, _⟩ := hS
        exact (gram_bar g1 ⟨w, _, b1, b2, a2⟩).elim
    | cons a1 _ a3 a4 =>
      cases a1.det hS'
      cases key a3
      cases exprs_end κ.nl g2 a4
      exact trail_end κ.nl ⟨[], Reads.nil _, by simp⟩ h6
  · cases a1.det hS'
    rcases a2 with a2 | a2
    · have i3 := (Hang.skip hb hi hS).1
      rw [(Hang.atEnd_iff i3).1 a2] at h6
      exact trail_end κ.nl ⟨[], Reads.nil _, by simp⟩ h6
    · obtain ⟨w, b1, b2, _⟩ := hS
      exact (gram_bar g1 ⟨w, _, b1, b2, a2⟩).elim

/-! ### Assignments -/

theorem reads_prefix {v w : Str} {r2 : List Cell} (h : Reads r v r1) (h2 : Reads r w r2) :
    (∃ t, v ++ t = w) ∨ ∃ t, w ++ t = v := by
  obtain ⟨p, rfl, e1⟩ := h
  obtain ⟨q, e2, e3⟩ := h2
  rcases List.append_eq_append_iff.1 e2 with ⟨a, rfl, _⟩ | ⟨a, rfl, _⟩
  · left
    rw [List.map_append, e1] at e3
    obtain ⟨x, y, rfl, hx, hy⟩ := List.map_eq_append_iff.1 e3.symm
    have := (List.map_inj_right fun _ _ h => Option.some.inj h).1 hx
    exact ⟨y, by rw [this]⟩
  · right
    rw [List.map_append, e3] at e1
    obtain ⟨x, y, rfl, hx, hy⟩ := List.map_eq_append_iff.1 e1.symm
    have := (List.map_inj_right fun _ _ h => Option.some.inj h).1 hx
    exact ⟨y, by rw [this]⟩

theorem reads_lets {op : Str} {v : Str} {r2 r3 : List Cell} (h : Reads r (op ++ [' ']) r1) (ho : op ∈ letOps) (hv : v ∈ letOps)
    (h2 : Reads r v r2) (h3 : Reads r op r3) : v = op ∧ r2 = r3 := by
  have hp : ∀ a ∈ letOps, ∀ b ∈ letOps, (∃ t, a ++ t = b ++ [' ']) ∨ (∃ t, b ++ [' '] ++ t = a) → a = b := by
    intro a ha b hb
    simp only [letOps, List.mem_cons, List.not_mem_nil, or_false] at ha hb
    rcases ha with rfl | rfl | rfl | rfl | rfl | rfl | rfl | rfl <;>
      rcases hb with rfl | rfl | rfl | rfl | rfl | rfl | rfl | rfl <;> simp
  have e : v = op := hp v hv op ho (reads_prefix h h2).symm
  subst e
  exact ⟨rfl, h2.rest_unique h3⟩

theorem letOp_lex' {op : Str} (ho : op ∈ letOps) (h : Reads r (' ' :: (op ++ [' '])) r1) : ∃ t r2, Lex env r t r2 := by
  have w : ∀ c ∈ [' '], iswhite c = true := by decide
  obtain ⟨p0, r0, rfl, g⟩ := h.cons_inv
  have h0 : Reads (⟨some ' ', p0⟩ :: r0) [' '] r0 := ⟨[_], rfl, rfl⟩
  simp only [letOps, List.mem_cons, List.not_mem_nil, or_false] at ho
  rcases ho with rfl | rfl | rfl | rfl | rfl | rfl | rfl | rfl
  all_goals
    obtain ⟨p1, y, rfl, g1⟩ := g.cons_inv
    have hh := reads_head g1
  · exact ⟨_, _, .text _ _ _ _ ['='] y h0 w ⟨[_], rfl, rfl⟩ (.eq _ (by simp [hh]) (by simp [hh]))⟩
  · exact ⟨_, _, .text _ _ _ _ ['+'] y h0 w ⟨[_], rfl, rfl⟩ (.plus _)⟩
  · exact ⟨_, _, .text _ _ _ _ ['-'] y h0 w ⟨[_], rfl, rfl⟩ (.minus _ (by simp [hh]))⟩
  · exact ⟨_, _, .text _ _ _ _ ['.'] y h0 w ⟨[_], rfl, rfl⟩ (.dot _ (by simp [hh]))⟩
  · obtain ⟨p2, z, rfl, g2⟩ := g1.cons_inv
    have hh := reads_head g2
    exact ⟨_, _, .text _ _ _ _ ['.', '.'] z h0 w ⟨[_, _], rfl, rfl⟩ (.dotdot _ (by simp [hh]))⟩
  · exact ⟨_, _, .text _ _ _ _ ['*'] y h0 w ⟨[_], rfl, rfl⟩ (.star _)⟩
  · exact ⟨_, _, .text _ _ _ _ ['/'] y h0 w ⟨[_], rfl, rfl⟩ (.slash _)⟩
  · exact ⟨_, _, .text _ _ _ _ ['%'] y h0 w ⟨[_], rfl, rfl⟩ (.percent _)⟩

theorem letOp_start' {op : Str} (ho : op ∈ letOps) (h : Reads r (op ++ [' ']) r1) : (headSym r).is iswhite = false ∧
    ¬ StartsWith r cs!"=<<" := by
  have no : ∀ op ∈ letOps, ∀ k, op ++ [' '] ++ k ≠ cs!"=<<" := by
    intro a ha
    simp only [letOps, List.mem_cons, List.not_mem_nil, or_false] at ha
    rcases ha with rfl | rfl | rfl | rfl | rfl | rfl | rfl | rfl <;> simp
  have no' : ∀ op ∈ letOps, ∀ k, cs!"=<<" ++ k ≠ op ++ [' '] := by
    intro a ha
    simp only [letOps, List.mem_cons, List.not_mem_nil, or_false] at ha
    rcases ha with rfl | rfl | rfl | rfl | rfl | rfl | rfl | rfl <;> simp
  have hd : ∃ x t, op = x :: t ∧ iswhite x = false := by
    simp only [letOps, List.mem_cons, List.not_mem_nil, or_false] at ho
    rcases ho with rfl | rfl | rfl | rfl | rfl | rfl | rfl | rfl <;> exact ⟨_, _, rfl, rfl⟩
  refine ⟨?_, ?_⟩
  · obtain ⟨x, t, rfl, hx⟩ := hd
    rw [reads_head h]
    exact hx
  · rintro ⟨r2, h2⟩
    rcases reads_prefix h h2 with ⟨k, e⟩ | ⟨k, e⟩
    · exact no op ho k e
    · exact no' op ho k e

theorem barOk_let {v op : Str} (hc : c.name = cs!"let" ∨ c.name = cs!"const" ∧ op = cs!"=") (hv : VarName v) (hw : ¬ isWord v)
    (ho : op ∈ letOps) (h : Phrase l e) : BarOk fn c (' ' :: (v ++ ' ' :: (op ++ ' ' :: l))) := by
  have hu : ' ' :: (v ++ ' ' :: (op ++ ' ' :: l)) = ([' '] ++ (v ++ ([' '] ++ (op ++ [' '])))) ++ l := by simp
  rw [hu]
  generalize hu' : [' '] ++ (v ++ ([' '] ++ (op ++ [' ']))) = u
  intro env N K C O x κ he hx hb hq hi ow b r2 ra hB hS
  rw [lineCells_append, reindex_append, List.append_assoc] at hx
  rw [lineCells_length] at hx
  have hR : Reads x u _ := ⟨_, hx, by rw [reindex_text, lineCells_text]⟩
  obtain ⟨e', y, g1, g2⟩ := h.at_end (env := env) (fn := fn) (N := N + u.length) (K := K) (C := C + bytesLen u)
    (O := O + bytesLen u) (Q := κ.q0) (e0 := κ.e0) (by
      rw [he]
      simp only [List.length_append, bytesLen_append, Cell.mk.injEq, Pos.mk.injEq, true_and]
      omega)
  generalize reindex (N + u.length) (lineCells K (C + bytesLen u) (O + bytesLen u) l) ++ κ.e0 :: κ.q0 = x4 at *
  subst hu'
  obtain ⟨xv, q1, hR⟩ := hR.split
  obtain ⟨x1, q2, hR⟩ := hR.split
  have lx := letOp_lex' (env := env) ho hR
  obtain ⟨x2, q3, hR⟩ := hR.split
  have st := letOp_start' ho hR
  have hR' := hR
  obtain ⟨x3, q4, q5⟩ := hR.split
  have g1 := gram_lead g1 ⟨[' '], q5, by decide⟩
  have s3 : x3 <:+ x := ((q4.suf.trans q3.suf).trans q2.suf).trans q1.suf
  have sv : xv <:+ x := q1.suf
  obtain ⟨t1, t2, t3, t4⟩ := var_target (env := env) (fn := fn) hv hw q2 (reads_head q3) lx
  have hB : r2 = x := by
    cases hB with
    | yes hB =>
      have := reads_head hB
      rw [reads_head q1] at this
      cases this
    | no => rfl
  subst hB
  have hra : ra = xv := by
    refine hS.det ?_
    obtain ⟨w, ⟨p, e1, e2⟩, _, e3⟩ := t4
    exact ⟨[' '], q1, by decide, by simpa using e3⟩
  subst hra
  have hs2 : Skip x1 x2 := ⟨[' '], q3, by decide, st.1⟩
  have left : ∀ {a as z r1}, LetLeft env fn (Target env fn) ra a as z r1 → r1 = x2 := by
    rintro a as z r1 ⟨y1, y2, b1, b2, b3, b4⟩
    cases b1.det t4
    cases ow.targ sv b3 (.one t2 t1)
    exact b4.det hs2
  have leftC : ∀ {a as z r1}, LetLeft env fn (ConstTarget env fn) ra a as z r1 → r1 = x2 := by
    rintro a as z r1 ⟨y1, y2, b1, b2, b3, b4⟩
    cases b1.det t4
    cases ow.const sv b3 (.one t2 ⟨t1, .inl ⟨_, rfl⟩⟩)
    exact b4.det hs2
  have done : ∀ {op' y2 e1 r3 cm r'}, op' ∈ letOps → Reads x2 op' y2 → Gram env fn 1 y2 e1 r3 → Trail env fn r3 cm r' →
      cm = [] ∧ r' = κ.q0 := by
    intro op' y2 e1 r3 cm r' b1 b2 b3 b4
    obtain ⟨rfl, rfl⟩ := reads_lets hR' ho b1 b2 q4
    cases ow.gram s3 b3 g1
    exact trail_end κ.nl g2 b4
  refine ⟨⟨fun _ r1 hr => by cases hr.det t4; exact t3, ?_, ?_⟩, ?_⟩
  · intro _ a as z r1 b
    cases left b
    exact ⟨⟨op, ho, _, q4⟩, st.2⟩
  · intro ec a as z r1 b
    cases leftC b
    rcases hc with hc | ⟨_, rfl⟩
    · rw [hc] at ec; cases ec
    · exact ⟨_, q4⟩
  · intro cx r ea r3 cm r' h5 h6
    have hno : ∀ {n : Str}, c.name = n → n ≠ cs!"let" → n ≠ cs!"const" → False := by
      intro n e n1 n2
      rcases hc with hc | ⟨hc, _⟩
      · exact n1 (e.symm.trans hc)
      · exact n2 (e.symm.trans hc)
    have hno' : ∀ {L : List Str}, c.name ∈ L → cs!"let" ∉ L → cs!"const" ∉ L → False := fun hL n1 n2 =>
      hno rfl (fun e => n1 (e ▸ hL)) (fun e => n2 (e ▸ hL))
    cases h5 with
    | simple h5 =>
      cases h5 with
      | let_ _ b1 b2 _ b3 b4 =>
        cases left b1
        exact done b2 b3 b4 h6
      | const_ _ b1 b3 b4 =>
        cases leftC b1
        exact done (by decide) b3 b4 h6
      | letListing _ b1 =>
        cases b1 with
        | all b1 b2 => cases b1.det t4; exact absurd b2 t3
        | some b1 b2 =>
          cases left b1
          exact absurd ⟨_, q4⟩ (b2 op (List.mem_cons_of_mem _ ho))
      | constListing hc' b1 =>
        cases b1 with
        | all b1 b2 => cases b1.det t4; exact absurd b2 t3
        | some b1 b2 =>
          cases leftC b1
          rcases hc with hc | ⟨_, rfl⟩
          · rw [hc] at hc'; cases hc'
          · exact absurd ⟨_, q4⟩ (b2 cs!"=" (by decide))
      | heredoc _ b1 b2 =>
        cases left b1
        exact absurd ⟨_, b2⟩ st.2
      | raw g =>
        exfalso
        have hb : c.name ∈ barCmds := by rcases hc with hc | ⟨hc, _⟩ <;> rw [hc] <;> decide
        cases g with
        | common g => exact g (bar_parsed _ hb)
        | finish g => exact hno g (by decide) (by decide)
        | finishTop g => exact hno g (by decide) (by decide)
        | append g => rcases g with g | g <;> exact hno g (by decide) (by decide)
        | keymap g => exact hno g (by decide) (by decide)
        | script g => exact bar_script _ hb g
        | scriptLine g => exact bar_script _ hb g
        | wincmd g => exact hno g (by decide) (by decide)
        | «syntax» g => exact hno g (by decide) (by decide)
      | echo g => exact (hno' g (by decide) (by decide)).elim
      | _ g => exact (hno g (by decide) (by decide)).elim
    | expr g => exact (hno' g (by decide) (by decide)).elim
    | none g => exact (hno' g (by decide) (by decide)).elim
    | _ g => exact (hno g (by decide) (by decide)).elim

end Viml
