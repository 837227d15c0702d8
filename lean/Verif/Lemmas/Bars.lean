/-
A bar or a comment instead of the end of a line, behind a command whose name is a word.
-/
import Verif.Lemmas.HangFile
import Verif.Lemmas.NoteMid

namespace Viml
open Spec

theorem barCmd_table : ∀ c ∈ neovimAdditionalCommands ++ builtinCommands, c.name ∈ barCmds →
    2 ≤ c.minlen ∧ .ARGOPT ∉ c.flags ∧ .EDITCMD ∉ c.flags := by
  decide +kernel

theorem barCmd_names : ∀ d ∈ neovimAdditionalCommands ++ builtinCommands, d.name ∈ barCmds → ∀ k ∈ List.range 12, d.minlen ≤ k →
    (d.name.take k).head? ∉ [some 'k', some 'p', some 'd', some 's', none] ∧
    (∀ c ∈ d.name.take k, isalpha c = true ∧ isupper c = false) ∧
    ∀ p ∈ vimModifiers, ¬ (d.name.take k <+: p.1 ∧ p.2 ≤ k) := by
  decide +kernel

theorem barName {nv : Bool} {n : Str} {c : Cmd} (h : TableCmd nv n c) (hc : c.name ∈ barCmds) : WordName n := by
  obtain ⟨h1, h2, h3⟩ := h.mem
  have hlen : ∀ x ∈ barCmds, x.length < 12 := by decide
  have e : n = c.name.take n.length := by
    obtain ⟨s, hs⟩ := h2
    rw [← hs]; simp
  have hl : n.length ≤ c.name.length := h2.length_le
  obtain ⟨k1, k2, k3⟩ := barCmd_names c h1 hc n.length (by simp; have := hlen _ hc; omega) h3
  rw [← e] at k1 k2 k3
  exact ⟨k1, k2, k3⟩

/-- The names of these commands, in front of anything but a letter. -/
theorem bar_spells {nv : Bool} {n u : Str} {c : Cmd} (ht : TableCmd nv n c) (hc : c.name ∈ barCmds) (hu : StopsAt isalpha u) :
    Spells nv n u c := by
  have hn := barName ht hc
  obtain ⟨x, s, e, hx⟩ := hn.cons
  simp only [List.mem_cons, List.not_mem_nil, or_false, not_or] at hx
  have ha : ∀ c ∈ n, isalpha c = true := fun c hc => (hn.alpha c hc).1
  refine ⟨⟨by rw [e]; simp, ha⟩, hu, .word (by rw [e]; simp) ha hu ?_ ?_ ?_ ?_, ht, ?_, hn.mods⟩
  · rw [e]
    rintro ⟨t, h⟩
    injection h with h
    exact hx.1 h.symm
  · rw [e]
    rintro ⟨y, _, t, h⟩
    injection h with h
    exact hx.2.2.2 h.symm
  · rw [e]
    rintro ⟨t, h⟩
    injection h with h
    exact hx.2.1 h.symm
  · rintro ⟨_, t, y, h, hm, _⟩
    have : ∀ t ∈ deleteAbbrevs, t.head? = some 'd' := by decide
    have := this t hm
    rw [e] at h
    cases t with
    | nil => cases this
    | cons z t =>
      injection h with h
      rw [h] at hx
      cases this
      exact hx.2.2.1 rfl
  · rintro ⟨⟨y, t, h, h1, h2⟩, _⟩
    have hu := (hn.alpha y (by rw [h]; simp)).2
    have h1 : 65 ≤ y.toNat := h1
    have h2 : y.toNat ≤ 90 := h2
    simp only [isupper, isUpperC, Bool.and_eq_false_iff, decide_eq_false_iff_not] at hu
    omega

/-- The line of the command `c` at `r` can end with `κ.q` instead, which is a bar, or a comment `ws`. -/
structure Barred (nv : Bool) (env : Env) (fn : Str) (t : Str) (c : Cmd) (κ : Hang env env fn fn) (ws : List Ast.Stmt)
    (r : List Cell) : Prop where
  m : κ.m = id
  stops : κ.Stops
  tail : Trail env fn κ.q ws κ.q0
  in_ : κ.In r
  name : ∃ x u u', Reads r t x ∧ LineIs x u ∧ LineIs (κ.tr x) u' ∧ Spells nv t u c ∧ Spells nv t u' c ∧
    ∀ b r2 ra, Bang c x b r2 → Skip r2 ra → Assigns env fn c ra ∧
      (headSym κ.q = .ch '"' → c.name ∈ noteCmds ∧
        (c.name = cs!"return" → ∀ r1, Skip ra r1 → ¬ (AtEnd r1 ∨ headSym r1 = .ch '|'))) ∧
      ∀ {cx ea r3 cm r'}, ArgsDone env fn cx r ra ea c ra r3 → Trail env fn r3 cm r' → cm = [] ∧ r' = κ.q0
  cmd : c.name ∈ barCmds

mutual

/-- Nothing is inserted. -/
theorem into_nil : ∀ {a b : List Ast.Stmt}, Into [] a b → a = b
  | _, _, .here a b => by simp
  | _, _, .sub a b h => by rw [intoS_nil h]

theorem intoS_nil : ∀ {a b : Ast.Stmt}, IntoS [] a b → a = b
  | _, _, .function h => by rw [into_nil h]
  | _, _, .while_ h => by rw [into_nil h]
  | _, _, .for_ h => by rw [into_nil h]
  | _, _, .if_ h => by rw [into_nil h]
  | _, _, .elseIfs h => by rw [intoS_nil h]
  | _, _, .elsePart h => by rw [intoS_nil h]
  | _, _, .elseIf h => by rw [into_nil h]
  | _, _, .else_ h => by rw [into_nil h]
  | _, _, .try_ h => by rw [into_nil h]
  | _, _, .catches h => by rw [intoS_nil h]
  | _, _, .finallyPart h => by rw [intoS_nil h]
  | _, _, .catch_ h => by rw [into_nil h]
  | _, _, .finally_ h => by rw [into_nil h]

end

theorem into_all (ws : List Ast.Stmt) : Into ws [] ws := by simpa using Into.here (ws := ws) [] []

namespace Barred
variable {nv : Bool} {env : Env} {fn : Str} {cx : Ctx} {used used' : List Str} {t : Str} {c : Cmd} {κ : Hang env env fn fn}
  {ws : List Ast.Stmt} {r r' r0 ra r1 r3 : List Cell}

theorem here (w : Barred nv env fn t c κ ws r) (i : κ.In r1) : Spec.here env fn (κ.tr r1) = Spec.here env fn r1 := by
  rw [Hang.here i, w.m]
  rfl

theorem options {ea ea' : Ast.ExArg} (w : Barred nv env fn t c κ ws r) (hm : c ∈ neovimAdditionalCommands ++ builtinCommands) :
    Options c ea r1 ea' r' ↔ ea' = ea ∧ r' = r1 := by
  obtain ⟨_, h2, h3⟩ := barCmd_table c hm w.cmd
  have nm : ∀ x ∈ barCmds, x ∉ [cs!"write", cs!"update", cs!"read", cs!"<", cs!">"] := by decide
  have := nm _ w.cmd
  simp only [List.mem_cons, List.not_mem_nil, or_false, not_or] at this
  obtain ⟨n1, n2, n3, n4, n5⟩ := this
  constructor
  · rintro ⟨e1, r1, e2, r2, e3, r3, e4, r4, g1, g2, g3, g4, g5⟩
    rcases g1 with ⟨g1, _⟩ | ⟨_, rfl, rfl⟩
    · exact absurd g1 h2
    rcases g5 with ⟨⟨g5, _⟩, _⟩ | ⟨_, rfl, rfl⟩
    · exact absurd g5 h3
    cases g2 with
    | append g => exact (g.elim n1 n2).elim
    | filter g => exact absurd g n1
    | none =>
      cases g3 with
      | bang g => exact absurd g n3
      | filter g => exact absurd g n3
      | none =>
        cases g4 with
        | shift g1 g2 =>
          rcases g2 with rfl | rfl
          · exact absurd g1 n4
          · exact absurd g1 n5
        | none => exact ⟨rfl, rfl⟩
  · rintro ⟨rfl, rfl⟩
    exact ⟨_, _, _, _, _, _, _, _, .inr ⟨h2, rfl, rfl⟩, .none (by simp [n1, n2]) (by simp [n1]), .none (by simp [n3]),
      .none n4 n5, .inr ⟨by simp [h3], rfl, rfl⟩⟩

theorem cmdHead {ea d} (w : Barred nv env fn t c κ ws r) (h : CmdHead nv env fn used r r0 ea d ra r1 used') :
    r0 = r ∧ d = c ∧ used' = used ∧ r1 = ra ∧ κ.In ra ∧ Assigns env fn c ra ∧
      (headSym κ.q = .ch '"' → c.name ∈ noteCmds ∧
        (c.name = cs!"return" → ∀ r1, Skip ra r1 → ¬ (AtEnd r1 ∨ headSym r1 = .ch '|'))) ∧
      (∀ {cx ea r3 cm r'}, ArgsDone env fn cx r ra ea c ra r3 → Trail env fn r3 cm r' → cm = [] ∧ r' = κ.q0) ∧
      CmdHead nv env fn used (κ.tr r) (κ.tr r) ea c (κ.tr ra) (κ.tr ra) used := by
  obtain ⟨ms, rg, rc, r2, b, r4, h1, h2, h3, h4, h5, h6, h7⟩ := h
  obtain ⟨x, u, u', g1, g2, g3, g4, g5, g6⟩ := w.name
  obtain ⟨rfl, rfl, rfl, rfl, rfl, rfl, rfl⟩ := named_spell g4 g1 g2 ⟨h1, h2, h3, h4⟩
  have hm := g4.cmd.mem.1
  obtain ⟨rfl, rfl⟩ := (w.options hm).1 h7
  obtain ⟨i1, a1⟩ := Hang.reads w.in_ g1
  obtain ⟨n1, n2, n3, n4⟩ := spell_named g5 a1 g3 used'
  obtain ⟨i2, a2⟩ := Hang.bang w.stops i1 h5
  rcases h6 with ⟨h6, _⟩ | ⟨h6, h8⟩
  · have nm : ∀ x ∈ barCmds, x ≠ cs!"!" := by decide
    exact absurd h6 (nm _ w.cmd)
  obtain ⟨i3, a3⟩ := Hang.skip w.stops i2 h8
  obtain ⟨g7, g9, g8⟩ := g6 _ _ _ h5 h8
  refine ⟨rfl, rfl, rfl, rfl, i3, g7, g9, g8, _, _, _, _, _, _, n1, n2, n3, n4, a2, .inr ⟨h6, a3⟩, ?_⟩
  rw [w.here w.in_, w.here i3]
  exact (w.options hm).2 ⟨rfl, rfl⟩

theorem trail {cm} (w : Barred nv env fn t c κ ws r) (i : κ.In r3) (h : Trail env fn r3 cm r') (h1 : cm = [] ∧ r' = κ.q0) :
    Trail env fn (κ.tr r3) ws r' := by
  obtain ⟨rfl, rfl⟩ := h1
  have key : ∀ {a}, Skip r3 a → κ.In a := fun h => (Hang.skip w.stops i h).1
  have hs : Skip r3 (κ.e0 :: κ.q0) := by
    generalize e : κ.q0 = y at h
    cases h with
    | eof h => exact absurd rfl (Hang.not_nil (key h))
    | eol h1 h2 =>
      have := (key h1).eol fun x e => by simp [headSym, Cell.sym, h2] at e
      rw [← e, ← this]
      exact h1
    | bar h1 h2 =>
      have := (Hang.reads (key h1) h2).1.length
      rw [e] at this
      omega
  have a := (Hang.skip w.stops i hs).2
  rw [Hang.tr_end] at a
  have hq : Skip κ.q κ.q := skip_self (by rcases w.stops with h | h <;> rw [h] <;> rfl)
  have ht := w.tail
  generalize κ.q0 = y at ht ⊢
  cases ht with
  | eof h => rw [← h.det hq] at a; exact .eof a
  | eol h h2 => rw [← h.det hq] at a; exact .eol a h2
  | bar h h2 => rw [← h.det hq] at a; exact .bar a h2
  | comment h h2 => rw [← h.det hq] at a; exact .comment a h2

theorem opens {α : Type} {n : Str} {A : List Cell → α → List Cell → Prop} {ea a cm} (w : Barred nv env fn t c κ ws r)
    (hk : ArgKind env fn n A) (h : Spec.Opens nv env fn n A used r ea a cm used' r') :
    cm = [] ∧ Spec.Opens nv env fn n A used (κ.tr r) ea a ws used' r' := by
  obtain ⟨r0, d, ra, r1, r2, rfl, h1, h2, h3⟩ := h
  obtain ⟨rfl, rfl, rfl, rfl, i, _, _, hq, h4⟩ := w.cmdHead h1
  have key : ∀ (b : α), κ.In r2 → A (κ.tr r1) b (κ.tr r2) → b = a → cm = [] ∧ r' = κ.q0 →
      cm = [] ∧ Spec.Opens nv env fn d.name A used' (κ.tr r0) ea a ws used' r' := by
    rintro b i2 a2 rfl hq
    exact ⟨hq.1, _, d, _, _, κ.tr r2, rfl, h4, a2, w.trail i2 h3 hq⟩
  generalize hn : d.name = n at hk key
  cases hk with
  | none hk =>
    cases h2
    refine key _ i rfl rfl (hq (cx := ⟨false, false, false⟩) (ea := ea) (.none ?_) h3)
    rw [hn]
    revert hk
    generalize n = n
    revert n
    decide
  | gram hk =>
    obtain ⟨i2, a2⟩ := Hang.gram h2 i
    rw [w.m, expr_id] at a2
    exact key _ i2 a2 rfl (hq (cx := ⟨false, false, false⟩) (ea := ea) (.expr (hn ▸ hk) h2) h3)
  | for_ =>
    obtain ⟨l, ls, x, e⟩ := a
    obtain ⟨i2, a2⟩ := Hang.forArgs w.stops i h2
    rw [w.m, expr_id, exprO_id, exprO_id, exprL_id] at a2
    exact key _ i2 a2 rfl (hq (cx := ⟨false, false, false⟩) (ea := ea) (.for_ hn h2) h3)
  | func => exact absurd w.cmd (by rw [hn]; decide)
  | catch_ => exact absurd w.cmd (by rw [hn]; decide)

theorem closes {n e} (w : Barred nv env fn t c κ ws r) (hn : n ∈ endCmds) (h : Closes nv env fn n used r e used' r') : False := by
  obtain ⟨r0, ea, d, ra, r1, rfl, h1, h2⟩ := h
  obtain ⟨_, rfl, _⟩ := w.cmdHead h1
  have key : ∀ x ∈ barCmds, x ∉ endCmds := by decide
  exact key _ w.cmd hn

theorem ifPart {used' r' ea ss y eis} (w : Barred nv env fn t c κ ws r) : IfPart nv env fn cx used r ea ss y eis used' r' →
    ∃ ss', Into ws ss ss' ∧ IfPart nv env fn cx used (κ.tr r) ea ss' y eis used' r'
  | .if_ h1 h2 => by
    obtain ⟨rfl, a⟩ := w.opens (.gram) h1
    exact ⟨_, (into_all ws).append, .if_ a h2⟩
  | .elseif h1 h2 h3 => by
    obtain ⟨_, a, b⟩ := w.ifPart h1
    exact ⟨_, a, .elseif b h2 h3⟩

theorem tryPart {used' r' ea ss cs} (w : Barred nv env fn t c κ ws r) : TryPart nv env fn cx used r ea ss cs used' r' →
    ∃ ss', Into ws ss ss' ∧ TryPart nv env fn cx used (κ.tr r) ea ss' cs used' r'
  | .try_ h1 h2 => by
    obtain ⟨rfl, a⟩ := w.opens (.none) h1
    exact ⟨_, (into_all ws).append, .try_ a h2⟩
  | .catch_ h1 h2 h3 => by
    obtain ⟨_, a, b⟩ := w.tryPart h1
    exact ⟨_, a, .catch_ b h2 h3⟩

theorem block {x} (w : Barred nv env fn t c κ ws r) : Block nv env fn cx used r x used' r' →
    ∃ x', IntoS ws x x' ∧ Block nv env fn cx used (κ.tr r) x' used' r'
  | .function h1 h2 h3 => by
    obtain ⟨rfl, a⟩ := w.opens .func h1
    exact ⟨_, .function (into_all ws).append, .function a h2 h3⟩
  | .while_ h1 h2 h3 => by
    obtain ⟨rfl, a⟩ := w.opens (.gram) h1
    exact ⟨_, .while_ (into_all ws).append, .while_ a h2 h3⟩
  | .for_ h1 h2 h3 => by
    obtain ⟨rfl, a⟩ := w.opens .for_ h1
    exact ⟨_, .for_ (into_all ws).append, .for_ a h2 h3⟩
  | .if_ h1 h2 => by
    obtain ⟨_, a, b⟩ := w.ifPart h1
    exact ⟨_, .if_ a, .if_ b h2⟩
  | .ifElse h1 h2 h3 h4 => by
    obtain ⟨_, a, b⟩ := w.ifPart h1
    exact ⟨_, .if_ a, .ifElse b h2 h3 h4⟩
  | .try_ h1 h2 => by
    obtain ⟨_, a, b⟩ := w.tryPart h1
    exact ⟨_, .try_ a, .try_ b h2⟩
  | .tryFinally h1 h2 h3 h4 => by
    obtain ⟨_, a, b⟩ := w.tryPart h1
    exact ⟨_, .try_ a, .tryFinally b h2 h3 h4⟩

/-- Before the name there is nothing. -/
theorem start (w : Barred nv env fn t c κ ws r) : ¬ StartsWith r cs!"#!" ∧ SkipC r r ∧ ¬ AtEnd r ∧ headSym r ≠ .ch '"' ∧
    ∀ {r0 ms rg rc}, Before r r0 ms rg rc → rc = r := by
  obtain ⟨x, u, u', h1, h2, h3, h4, h5, h6⟩ := w.name
  have h := spell_before h4 h1 h2
  exact ⟨h.1, h.2.1, h.2.2.1, h.2.2.2.1, fun hb => (before_spell h4 h1 h2 hb).2.2.2⟩

theorem body {used' r' ss} (w : Barred nv env fn t c κ ws r) : Body nv env fn cx used r ss used' r' →
    (ss = [] ∧ used' = used ∧ r' = r) ∨ ∃ ss', Into ws ss ss' ∧ Body nv env fn cx used (κ.tr r) ss' used' r'
  | .nil => .inl ⟨rfl, rfl, rfl⟩
  | .shebang h h1 h2 h3 => by
    rcases w.body h with ⟨rfl, rfl, rfl⟩ | ⟨_, a, h⟩
    · exact absurd h1 w.start.1
    · exact .inr ⟨_, a, .shebang h h1 h2 h3⟩
  | .empty h h2 h3 => by
    rcases w.body h with ⟨rfl, rfl, rfl⟩ | ⟨_, a, h⟩
    · obtain ⟨_, e1, e2, _⟩ := w.start
      rw [← h2.det e1] at e2
      exact absurd (.inl (by simp [headSym, Cell.sym, h3])) e2
    · exact .inr ⟨_, a, .empty h h2 h3⟩
  | .comment h h2 h3 => by
    rcases w.body h with ⟨rfl, rfl, rfl⟩ | ⟨_, a, h⟩
    · obtain ⟨_, e1, _, e2, _⟩ := w.start
      cases h2.det e1
      cases h3 with
      | mk h3 => exact absurd (reads_head h3) e2
    · exact .inr ⟨_, a.append, .comment h h2 h3⟩
  | .noCommand h h1 h2 h3 h4 => by
    rcases w.body h with ⟨rfl, rfl, rfl⟩ | ⟨_, a, h⟩
    · obtain ⟨_, _, e1, e2, e3⟩ := w.start
      cases e3 h1
      exact (h2.elim e1 e2).elim
    · exact .inr ⟨_, a.append.append, .noCommand h h1 h2 h3 h4⟩
  | .simple (r2 := r2) h h1 h2 h3 => by
    rcases w.body h with ⟨rfl, rfl, rfl⟩ | ⟨_, a, h⟩
    · obtain ⟨rfl, rfl, rfl, rfl, i, ha, hn, hq, h4⟩ := w.cmdHead h1
      obtain ⟨i2, a2⟩ := Hang.simple (s0 := κ.tr _) (sa := κ.tr r2) w.stops w.cmd hn ha i h2
      rw [w.m, exArg_id, stmtL_id] at a2
      have hc := hq (.simple h2) h3
      obtain rfl := hc.1
      exact .inr ⟨_, by simpa using (into_all ws).prepend, .simple .nil h4 a2 (w.trail i2 h3 hc)⟩
    · exact .inr ⟨_, a.append.append, .simple h h1 h2 h3⟩
  | .block h h1 h2 => by
    rcases w.body h with ⟨rfl, rfl, rfl⟩ | ⟨_, a, h⟩
    · obtain ⟨_, a, b⟩ := w.block h1
      exact .inr ⟨_, (Into.sub [] [] a).append, .block .nil b h2⟩
    · exact .inr ⟨_, a.append.append, .block h h1 h2⟩

theorem attach (w : Barred nv env fn t c κ ws r) : Attach nv env fn ws (κ.tr r) r where
  body h := w.body h
  opens hk h := w.opens hk h
  closes hn h := w.closes hn h

theorem subst (w : Barred nv env fn t c κ [] r) : Subst nv env fn [] [] (κ.tr r) r where
  body h := (w.body h).imp id fun ⟨_, h1, h2⟩ => into_nil h1 ▸ ⟨_, .refl .., h2⟩
  opens hk h := by
    obtain ⟨rfl, h1⟩ := w.opens hk h
    exact h1
  closes hn h := (w.closes hn h).elim

end Barred
end Viml
