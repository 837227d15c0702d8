/-
Runs of the expression parser: how the result of one level follows from the next one, and the steps of
its loops.
-/
import Verif.Lemmas.ExprAst
import Verif.Lemmas.LookupRun

namespace Viml
open Prog Spec

section
variable {env : Env}

local notation "run(" m "," r ")" => Prog.runWith tokGet env m r

theorem loopN_inl {σ β : Type} {T : Env → List Cell → Res Token} {body : σ → Prog (σ ⊕ β)} {s s' : σ} {n : Nat}
    {r r' : List Cell} (h : (body s).runWith T env r = .ok (.inl s') r') :
    (loopN body (n + 1) s).runWith T env r = (loopN body n s').runWith T env r' := by
  rw [loopN, run_ok h]

theorem loopN_inr {σ β : Type} {T : Env → List Cell → Res Token} {body : σ → Prog (σ ⊕ β)} {s : σ} {b : β} {n : Nat}
    {r r' : List Cell} (h : (body s).runWith T env r = .ok (.inr b) r') :
    (loopN body (n + 1) s).runWith T env r = .ok b r' := by
  rw [loopN, run_ok h]; rfl

theorem loop_run {σ β : Type} {T : Env → List Cell → Res Token} {body : σ → Prog (σ ⊕ β)} {s : σ} {r : List Cell} :
    (loop body s).runWith T env r = (loopN body (r.length + 1) s).runWith T env r := rfl

theorem tell_run {T : Env → List Cell → Res Token} (r : List Cell) : tell.runWith T env r = .ok r r := rfl
theorem tokget_run (r : List Cell) : run(tokget, r) = tokGet env r := by
  unfold tokget
  rw [Prog.runWith]
  cases tokGet env r <;> rfl
theorem seekSet_run {T : Env → List Cell → Res Token} (s r : List Cell) : (seekSet s).runWith T env r = .ok () s := rfl

theorem tokpeek_run {r r' : List Cell} {t : Token} (h : tokGet env r = .ok t r') : run(tokpeek, r) = .ok t r := by
  unfold tokpeek
  rw [run_ok (tell_run r), run_ok (by rw [tokget_run]; exact h), run_ok (seekSet_run _ _)]
  rfl

/-- The body of the loop of a left-associative level. -/
def binBody (next : Prog VExpr) (ops : TT → Option BinTy) (left : VExpr) : Prog (VExpr ⊕ VExpr) := do
  let s ← tell
  let t ← tokget
  match ops t.ty with
  | some op =>
    let right ← next
    pure (.inl (.binary t.pos op left right))
  | none =>
    seekSet s
    pure (.inr left)

theorem binLoop_eq (next : Prog VExpr) (ops : TT → Option BinTy) :
    binLoop next ops = next >>= loop (binBody next ops) := rfl

theorem binBody_op {next : Prog VExpr} {ops : TT → Option BinTy} {left right : VExpr} {op : BinTy} {t : Token}
    {r r1 r2 : List Cell} (ht : tokGet env r = .ok t r1) (ho : ops t.ty = some op)
    (hn : run(next, r1) = .ok right r2) :
    run(binBody next ops left, r) = .ok (.inl (.binary t.pos op left right)) r2 := by
  unfold binBody
  rw [run_ok (tell_run r), run_ok (by rw [tokget_run]; exact ht), ho]
  simp only
  rw [run_ok hn]
  rfl

theorem binBody_stop {next : Prog VExpr} {ops : TT → Option BinTy} {left : VExpr} {t : Token}
    {r r1 : List Cell} (ht : tokGet env r = .ok t r1) (ho : ops t.ty = none) :
    run(binBody next ops left, r) = .ok (.inr left) r := by
  unfold binBody
  rw [run_ok (tell_run r), run_ok (by rw [tokget_run]; exact ht), ho]
  simp only
  rw [run_ok (seekSet_run _ _)]
  rfl

/-- The body of the loop of `parse_expr8`. -/
def body8 (rec : Prog VExpr) (left : VExpr) : Prog (VExpr ⊕ VExpr) := do
  let s ← tell
  let c ← peek
  let t ← tokget
  if (!c.is iswhite && t.ty == .sqopen) = true then
    let e ← parseSubscript rec t.pos left
    pure (.inl e)
  else if t.ty = .arrow then
    let f ← expr9 rec
    let t2 ← tokget
    if t2.ty ≠ .popen then errAt cs!"E107: Missing parentheses: lambda" t2.pos
    else
      let rl ← parseRlist rec
      pure (.inl (.method t2.pos left (.call t2.pos f rl)))
  else if t.ty = .popen then
    let rl ← parseRlist rec
    pure (.inl (.call t.pos left rl))
  else if (!c.is iswhite && t.ty == .dot) = true then
    let r ← parseDot t left
    match r with
    | none =>
      seekSet s
      pure (.inr left)
    | some e => pure (.inl e)
  else
    seekSet s
    pure (.inr left)

theorem expr8_eq (rec : Prog VExpr) : expr8 rec = expr9 rec >>= loop (body8 rec) := rfl

theorem peek_run' {T : Env → List Cell → Res Token} (r : List Cell) : peek.runWith T env r = .ok (headSym r) r := by
  cases r <;> rfl

theorem body8_stop {rec : Prog VExpr} {left : VExpr} {t : Token} {r r1 : List Cell}
    (ht : tokGet env r = .ok t r1) (h1 : t.ty ≠ .arrow) (h2 : t.ty ≠ .popen)
    (h3 : (headSym r).is iswhite = true ∨ t.ty ≠ .sqopen ∧ t.ty ≠ .dot) :
    run(body8 rec left, r) = .ok (.inr left) r := by
  have hs : (!(headSym r).is iswhite && t.ty == .sqopen) = false := by
    rcases h3 with h | ⟨h, _⟩
    · simp [h]
    · simp [h]
  have hd : (!(headSym r).is iswhite && t.ty == .dot) = false := by
    rcases h3 with h | ⟨_, h⟩
    · simp [h]
    · simp [h]
  unfold body8
  rw [run_ok (tell_run r), run_ok (peek_run' r), run_ok (by rw [tokget_run]; exact ht),
    if_neg (by simp [hs]), if_neg h1, if_neg h2, if_neg (by simp [hd]), run_ok (seekSet_run _ _)]
  rfl

theorem body8_sub {rec : Prog VExpr} {left e : VExpr} {t : Token} {r r1 r2 : List Cell}
    (ht : tokGet env r = .ok t r1) (h : (headSym r).is iswhite = false) (h1 : t.ty = .sqopen)
    (he : run(parseSubscript rec t.pos left, r1) = .ok e r2) :
    run(body8 rec left, r) = .ok (.inl e) r2 := by
  unfold body8
  rw [run_ok (tell_run r), run_ok (peek_run' r), run_ok (by rw [tokget_run]; exact ht),
    if_pos (by simp [h, h1]), run_ok he]
  rfl

theorem parseSubscript_run {rec : Prog VExpr} {q : Pos} {left e : VExpr} {t0 t : Token} {r r0 r1 r2 : List Cell}
    (h0 : tokGet env r = .ok t0 r0) (h1 : t0.ty ≠ .colon) (he : run(rec, r) = .ok e r1)
    (ht : tokGet env r1 = .ok t r2) (h2 : t.ty = .sqclose) :
    run(parseSubscript rec q left, r) = .ok (.subscript q left e) r2 := by
  unfold parseSubscript
  rw [run_ok (tokpeek_run h0), if_neg h1, run_ok he, run_ok (tokpeek_run ht), if_neg (by rw [h2]; decide)]
  have : run(expectSqclose, r1) = .ok () r2 := by
    unfold expectSqclose
    rw [run_ok (by rw [tokget_run]; exact ht), if_neg (by simp [h2])]
    rfl
  rw [run_ok this]
  rfl

/-! ### Levels -/

/-- The parser of level `k`. -/
def lvl (rec : Prog VExpr) : Nat → Prog VExpr
  | 1 => expr1 rec | 2 => expr2 rec | 3 => expr3 rec | 4 => expr4 rec | 5 => expr5 rec
  | 6 => expr6 rec | 7 => expr7 rec | 8 => expr8 rec | _ => expr9 rec

/-- Levels that are loops. -/
def IsLoop (j : Nat) : Prop := j = 2 ∨ j = 3 ∨ j = 5 ∨ j = 6 ∨ j = 8

def lvlBody (rec : Prog VExpr) : Nat → VExpr → Prog (VExpr ⊕ VExpr)
  | 2 => binBody (expr3 rec) opsOr
  | 3 => binBody (expr4 rec) opsAnd
  | 5 => binBody (expr6 rec) opsAdd
  | 6 => binBody (expr7 rec) opsMul
  | _ => body8 rec

theorem lvl_loop {rec : Prog VExpr} {j : Nat} (h : IsLoop j) :
    lvl rec j = lvl rec (j + 1) >>= loop (lvlBody rec j) := by
  rcases h with rfl | rfl | rfl | rfl | rfl <;> rfl

/-- The operator level of a token; 0 if it is no binary operator. -/
def ttLevel : TT → Nat
  | .oror => 2 | .andand => 3 | .cmp .. => 4
  | .plus | .minus | .dot | .dotdot => 5
  | .star | .slash | .percent => 6
  | _ => 0

/-- The token after an expression of level `k` that does not belong to it; `c` is what the reader is at. -/
def Stop (k : Nat) (c : Sym) (ty : TT) : Prop :=
  ttLevel ty < k ∧ ty ≠ .question ∧ ty ≠ .arrow ∧ ty ≠ .popen ∧
  (k ≤ 8 → c.is iswhite = true ∨ ty ≠ .sqopen ∧ ty ≠ .dot)

theorem lvlBody_stop {rec : Prog VExpr} {j : Nat} (hj : IsLoop j) {left : VExpr} {t : Token} {r r1 : List Cell}
    (ht : tokGet env r = .ok t r1) (hs : Stop j (headSym r) t.ty) :
    run(lvlBody rec j left, r) = .ok (.inr left) r := by
  obtain ⟨h1, h2, h3, h4, h5⟩ := hs
  rcases hj with rfl | rfl | rfl | rfl | rfl
  · exact binBody_stop ht (by cases hty : t.ty <;> rw [hty] at h1 <;> simp [ttLevel] at h1 <;> rfl)
  · exact binBody_stop ht (by cases hty : t.ty <;> rw [hty] at h1 <;> simp [ttLevel] at h1 <;> rfl)
  · exact binBody_stop ht (by cases hty : t.ty <;> rw [hty] at h1 <;> simp [ttLevel] at h1 <;> rfl)
  · exact binBody_stop ht (by cases hty : t.ty <;> rw [hty] at h1 <;> simp [ttLevel] at h1 <;> rfl)
  · exact body8_stop ht h3 h4 (h5 (by omega))

/-- The parser of level `j` reads `v`.  At level 7 for every sufficient step bound. -/
def Runs (env : Env) (rec : Prog VExpr) (j : Nat) (r : List Cell) (v : VExpr) (r' : List Cell) : Prop :=
  if j = 7 then ∀ m, r.length < m → (expr7N rec m).runWith tokGet env r = .ok v r'
  else (lvl rec j).runWith tokGet env r = .ok v r'

theorem Runs.run {rec : Prog VExpr} {j : Nat} {r r' : List Cell} {v : VExpr} (h : Runs env rec j r v r') :
    run(lvl rec j, r) = .ok v r' := by
  unfold Runs at h
  split at h
  · subst j; exact h _ (by omega)
  · exact h

/-- The parser of level `j` reads `v`, up to going on with the loop of this level. -/
def Partly (env : Env) (rec : Prog VExpr) (j : Nat) (r : List Cell) (v : VExpr) (r' : List Cell) : Prop :=
  ∃ m, r'.length < m ∧
    (lvl rec j).runWith tokGet env r = (loopN (lvlBody rec j) m v).runWith tokGet env r'

theorem Runs.partly {rec : Prog VExpr} {j : Nat} (hj : IsLoop j) {r r' : List Cell} {v : VExpr}
    (h : Runs env rec (j + 1) r v r') : Partly env rec j r v r' := by
  refine ⟨r'.length + 1, by omega, ?_⟩
  rw [lvl_loop hj, run_ok h.run]
  rfl

theorem Partly.runs {rec : Prog VExpr} {j : Nat} (hj : IsLoop j) {r r' r1 : List Cell} {v : VExpr} {t : Token}
    (h : Partly env rec j r v r') (ht : tokGet env r' = .ok t r1) (hs : Stop j (headSym r') t.ty) :
    Runs env rec j r v r' := by
  obtain ⟨m, h1, h2⟩ := h
  cases m with
  | zero => omega
  | succ m =>
    rw [loopN_inr (lvlBody_stop hj ht hs)] at h2
    unfold Runs
    rw [if_neg (by rcases hj with rfl | rfl | rfl | rfl | rfl <;> decide)]
    exact h2

theorem Partly.step {rec : Prog VExpr} {j : Nat} {r r' r2 : List Cell} {v v' : VExpr}
    (h : Partly env rec j r v r') (hb : run(lvlBody rec j v, r') = .ok (.inl v') r2) (hl : r2.length < r'.length) :
    Partly env rec j r v' r2 := by
  obtain ⟨m, h1, h2⟩ := h
  cases m with
  | zero => omega
  | succ m => exact ⟨m, by omega, by rw [h2, loopN_inl hb]⟩

theorem Runs.up4 {rec : Prog VExpr} {r r' r1 : List Cell} {v : VExpr} {t : Token}
    (h : Runs env rec 5 r v r') (ht : tokGet env r' = .ok t r1) (hs : Stop 4 (headSym r') t.ty) :
    Runs env rec 4 r v r' := by
  show run(expr4 rec, r) = _
  have ho : opsCmp t.ty = none := by
    have h1 := hs.1
    cases hty : t.ty <;> rw [hty] at h1 <;> simp [ttLevel] at h1 <;> rfl
  unfold expr4
  rw [run_ok (show run(expr5 rec, r) = _ from h.run), run_ok (tell_run _),
    run_ok (by rw [tokget_run]; exact ht), ho]
  simp only
  rw [run_ok (seekSet_run _ _)]
  rfl

theorem Runs.cmp {rec : Prog VExpr} {r r' r1 r2 : List Cell} {v x : VExpr} {t : Token} {op : BinTy}
    (h : Runs env rec 5 r v r') (ht : tokGet env r' = .ok t r1) (ho : opsCmp t.ty = some op)
    (hx : Runs env rec 5 r1 x r2) : Runs env rec 4 r (.binary t.pos op v x) r2 := by
  show run(expr4 rec, r) = _
  unfold expr4
  rw [run_ok (show run(expr5 rec, r) = _ from h.run), run_ok (tell_run _),
    run_ok (by rw [tokget_run]; exact ht), ho]
  simp only
  rw [run_ok (show run(expr5 rec, r1) = _ from hx.run)]
  rfl

theorem Runs.up1 {rec : Prog VExpr} {r r' r1 : List Cell} {v : VExpr} {t : Token}
    (h : Runs env rec 2 r v r') (ht : tokGet env r' = .ok t r1) (hs : t.ty ≠ .question) :
    Runs env rec 1 r v r' := by
  show run(expr1 rec, r) = _
  unfold expr1
  rw [run_ok (show run(expr2 rec, r) = _ from h.run), run_ok (tell_run _),
    run_ok (by rw [tokget_run]; exact ht), if_neg hs, run_ok (seekSet_run _ _)]
  rfl

theorem Runs.up7 {rec : Prog VExpr} {r r' r1 : List Cell} {v : VExpr} {t : Token}
    (h : Runs env rec 8 r v r') (ht : tokGet env r = .ok t r1) (hs : opsUnary t.ty = none) :
    Runs env rec 7 r v r' := by
  show ∀ m, r.length < m → _
  intro m hm
  cases m with
  | zero => omega
  | succ m =>
    rw [expr7N, run_ok (tell_run _), run_ok (by rw [tokget_run]; exact ht), hs]
    simp only
    rw [run_ok (seekSet_run _ _)]
    exact h.run

theorem Runs.unary {rec : Prog VExpr} {r r' r1 : List Cell} {v : VExpr} {t : Token} {op : UnTy}
    (ht : tokGet env r = .ok t r1) (hs : opsUnary t.ty = some op) (hl : r1.length < r.length)
    (h : Runs env rec 7 r1 v r') :
    Runs env rec 7 r (.unary t.pos op v) r' := by
  show ∀ m, r.length < m → _
  replace h : ∀ m, r1.length < m → _ := h
  intro m hm
  cases m with
  | zero => omega
  | succ m =>
    rw [expr7N, run_ok (tell_run _), run_ok (by rw [tokget_run]; exact ht), hs]
    simp only
    rw [run_ok (h m (by omega))]
    rfl

end
end Viml
