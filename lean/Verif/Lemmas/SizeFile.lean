/-
Lemmas for C76: every node of the tree of a file takes at least one cell of the text.
-/
import Verif.Lemmas.Size

namespace Viml
open Spec Ast

section
variable {env : Env} {fn : Str} {nv : Bool}

/-! ### Targets -/

theorem lvStart_takes {r e r'} (h : LvStart env fn r e r') : Takes r [.expr e] r' := by
  cases h with
  | lit h1 h2 _ => exact .leaf (h1.shorter h2.ne_eof) rfl
  | name h1 _ h2 h3 => exact nameNode_takes h1.suf (names_takes h2) h3
  | sid h1 h2 h3 h4 =>
    refine nameNode_takes h1.suf ?_ (by simp)
    obtain ⟨k, t1, t2, t3⟩ := names_takes h4
    have h5 := h2.len
    have h6 := equalci_len h3
    exact ⟨1 + k, (Fit.leaf rfl).append t1, by omega, .inl (by omega)⟩

theorem lv_takes {r e r'} (h : LvChain env fn r e r') : Takes r [.expr e] r' := by
  induction h with
  | start h => exact lvStart_takes h
  | subscript _ _ h2 h3 h4 ih => exact .mid ih (h2.shorter (by simp)) ((gram_takes h3).right h4.suf) rfl
  | slice _ _ h2 h3 h4 h5 h6 ih =>
    exact .mid ih (h2.shorter (by simp)) ((opt_takes h3).append (((opt_takes h5).left h4.suf).right h6.suf))
      (by simp [parts, exprParts])
  | dot _ _ _ h2 h3 ih => exact .mid ih (h2.shorter (by simp)) (.leaf (h3.1.shorter h3.2.1.1) rfl) rfl

theorem target_takes {r e r'} (h : Target env fn r e r') : Takes r [.expr e] r' := lv_takes h.1.1

theorem targetList_takes {r es x r'} (h : TargetList env fn r es x r') : Takes r ((es ++ x.toList).map .expr) r' := by
  induction h with
  | last h1 h2 => exact (target_takes h1).right h2.suf
  | cons h1 h2 _ ih => exact (target_takes h1).append (ih.left h2.suf)
  | rest h1 h2 h3 h4 => exact (target_takes h1).append (((target_takes h3).left h2.suf).right h4.suf)

theorem lhs_takes {S : List Cell → Expr → List Cell → Prop} (hS : ∀ {r e r'}, S r e r' → Takes r [.expr e] r')
    {r l ls x r'} (h : LhsAt env fn S r l ls x r') : Takes r ((l.toList ++ ls ++ x.toList).map .expr) r' := by
  cases h with
  | one _ h => simpa using hS h
  | list h1 h2 => simpa using (targetList_takes h2).left h1.suf

theorem letLeft_takes {S : List Cell → Expr → List Cell → Prop} (hS : ∀ {r e r'}, S r e r' → Takes r [.expr e] r')
    {r l ls x r'} (h : LetLeft env fn S r l ls x r') : Takes r ((l.toList ++ ls ++ x.toList).map .expr) r' := by
  obtain ⟨r1, r2, h1, _, h2, h3⟩ := h
  exact ((lhs_takes hS h2).left h1.adv.suffix).right h3.adv.suffix

theorem targets_takes {r es r'} (h : Targets env fn r es r') : Takes r (es.map .expr) r' := by
  induction h with
  | nil h _ => exact .nil h.adv.suffix
  | cons h1 _ h2 _ ih => exact ((target_takes h2).append ih).left h1.adv.suffix

theorem lockArgs_takes {r es r'} (h : LockArgs env fn r es r') : Takes r (es.map .expr) r' := by
  cases h with
  | mk h1 h2 => exact (gram_takes h1).append (targets_takes h2)

theorem exprs_takes {r es r'} (h : Exprs env fn r es r') : Takes r (es.map .expr) r' := by
  induction h with
  | nil h _ => exact .nil h.adv.suffix
  | cons h1 _ h2 _ ih => exact ((gram_takes h2).append ih).left h1.adv.suffix

/-! ### Functions -/

theorem params_takes {used d r is ds r'} (h : ParamList env fn used d r is ds r') :
    ∃ i j, Fit i (is.map fun i => .expr (.ident i)) ∧ Fit j (ds.map .expr) ∧ i + j + r'.length ≤ r.length := by
  have one : ∀ {used d r i ds r1}, Param env fn used d r i ds r1 →
      ∃ j, Fit j (ds.map .expr) ∧ 1 + j + r1.length ≤ r.length := by
    intro used d r i ds r1 h
    cases h with
    | plain h1 h2 => exact ⟨0, .nil _, by have := h1.shorter (by rw [h2]; simp); omega⟩
    | default h1 h2 _ _ h3 h4 =>
      have h5 := gram_takes h4
      have h6 := h5.1
      have h7 := h1.shorter (by rw [h2]; simp)
      have h8 := h3.suf.length_le
      exact ⟨_, h5.2, by omega⟩
  induction h with
  | dots h1 h2 h3 =>
    refine ⟨1, 0, .leaf rfl, .nil _, ?_⟩
    have := h1.shorter (by rw [h2]; simp)
    have := h3.suf.length_le
    omega
  | last h1 h2 =>
    obtain ⟨j, t1, t2⟩ := one h1
    exact ⟨1, j, .leaf rfl, t1, by have := h2.suf.length_le; omega⟩
  | comma h1 _ h2 h3 =>
    obtain ⟨j, t1, t2⟩ := one h1
    exact ⟨1, j, .leaf rfl, t1, by have := h2.suf.length_le; have := h3.suf.length_le; omega⟩
  | cons h1 _ h2 _ _ ih =>
    obtain ⟨j, t1, t2⟩ := one h1
    obtain ⟨i, j', u1, u2, u3⟩ := ih
    refine ⟨1 + i, j + j', (Fit.leaf rfl).append u1, ?_, ?_⟩
    · rw [List.map_append]; exact t1.append u2
    · have := h2.suf.length_le; omega

theorem attrs_suffix {r ks r'} (h : Attrs r ks r') : r' <:+ r := by
  induction h with
  | nil h _ => exact h.adv.suffix
  | cons h1 h2 _ _ ih => exact (ih.trans h2.1.suf).trans h1.adv.suffix

theorem funcHead_takes {r e is ds at_ r'} (h : FuncHead env fn r e is ds at_ r') :
    Takes r (.expr e :: (is.map (fun i => .expr (.ident i)) ++ ds.map .expr)) r' := by
  cases h with
  | mk h1 _ _ h2 _ h3 h4 h5 h6 =>
    refine ((lv_takes h2.1.1).append (Takes.left ?_ (h4.suf.trans h3.adv.suffix))).left h1.adv.suffix
    refine Takes.right ?_ (attrs_suffix h6)
    cases h5 with
    | none h => exact .nil h.suf
    | some _ h =>
      obtain ⟨i, j, t1, t2, t3⟩ := params_takes h
      exact ⟨by omega, (t1.append t2).mono (by omega)⟩

/-! ### Commands -/

theorem Spec.NameOf.ne_nil {n t s} (h : NameOf n t s) : t ≠ [] := by
  cases h with
  | k => simp
  | sub => simp
  | punct => simp
  | py h =>
    rintro rfl
    simp at h
  | @delete t s c h _ =>
    rintro rfl
    obtain ⟨_, t, d, h1, h2, _⟩ := h
    cases t with
    | nil => revert h2; decide
    | cons a t => simp at h1
  | word h => exact h

theorem Spec.CmdName.shorter {used r c r' used'} (h : CmdName nv used r c r' used') : r'.length < r.length := by
  cases h with
  | table _ h1 _ _ h2 => exact h2.shorter h1.ne_nil
  | user h1 h2 _ h3 =>
    obtain ⟨⟨c, s, rfl, _⟩, _⟩ := h2
    have := h1.1.shorter (by simp)
    have := h3.1.suf.length_le
    omega
  | again h1 h2 _ =>
    obtain ⟨⟨c, s, rfl, _⟩, _⟩ := h2
    exact h1.1.shorter (by simp)

theorem head_lt {used used' r r0 ea c ra r'} (h : CmdHead nv env fn used r r0 ea c ra r' used') :
    ra.length < r.length := by
  obtain ⟨ms, rg, rc, r1, b, r2, h1, h2, h3, h4, h5, h6, h7⟩ := h.ex
  have a1 := h1.2.1.adv.suffix.length_le
  have a2 := h1.adv.suffix.length_le
  have a3 := h4.shorter
  have a4 := h5.adv.suffix.length_le
  have a5 : ra.length ≤ r2.length := by
    rcases h6 with ⟨_, rfl⟩ | ⟨_, h6⟩
    · exact Nat.le_refl _
    · exact h6.adv.suffix.length_le
  omega

theorem comment_takes {r s r'} (h : Comment env fn r s r') : Takes r [.stmt s] r' := by
  cases h with
  | mk h1 h2 _ =>
    refine .leaf ?_ rfl
    have := h1.shorter (by simp)
    have := h2.len
    simp only [List.length_cons] at this
    omega

theorem trail_takes {r cm r'} (h : Trail env fn r cm r') : Takes r (cm.map .stmt) r' := by
  cases h with
  | eof h => exact .nil h.adv.suffix
  | eol h => exact .nil ((List.suffix_cons _ _).trans h.adv.suffix)
  | bar h h1 => exact .nil (h1.suf.trans h.adv.suffix)
  | comment h h1 => exact (comment_takes h1).left h.adv.suffix

theorem fit_strs (l : List (Pos × Str)) : Fit l.length ((strNodes fn l).map .expr) := by
  induction l with
  | nil => exact .nil _
  | cons x l ih => exact ((Fit.leaf rfl).append ih).mono (by simp only [List.length_cons]; omega)

theorem hereHead_len {r fs m r'} (h : HereHead env r fs m r') : fs.length + r'.length ≤ r.length := by
  induction h with
  | marker h1 h2 _ =>
    have := h1.adv.suffix.length_le
    have := h2.1.suf.length_le
    simp only [List.length_nil]
    omega
  | flag h1 h2 _ _ ih =>
    have := h1.adv.suffix.length_le
    have := h2.1.shorter (by simp)
    simp only [List.length_cons]
    omega

theorem hLines_len {m r ls r'} (h : HLines env m r ls r') : ls.length + r'.length ≤ r.length := by
  induction h with
  | done h _ =>
    have := h.suf.length_le
    simp only [List.length_nil]
    omega
  | cons h1 _ _ _ ih =>
    have := h1.len
    simp only [List.length_cons] at this ⊢
    omega

theorem simple_takes {used used' cx r0 ea c ra r r1 xs r'} (h : CmdHead nv env fn used r1 r0 ea c ra r used')
    (hs : Spec.Simple env fn cx r0 ra ea c r xs r') : Takes r1 (xs.map .stmt) r' := by
  obtain ⟨a0, a1, _⟩ := head_track h
  have a1 := a1.suffix
  have lt := head_lt h
  cases hs with
  | raw hr => exact .pre lt (.nil (raw_suffix a0 a1 hr)) rfl
  | funcListing _ _ hr => exact .pre lt (.nil ((rawText_suffix hr).trans a1)) rfl
  | letListing _ _ hr => exact .pre lt (.nil ((rawText_suffix hr).trans a1)) rfl
  | constListing _ _ hr => exact .pre lt (.nil ((rawText_suffix hr).trans a1)) rfl
  | delfunction _ h1 => exact .pre lt ((lv_takes h1.1.1).left a1) rfl
  | return_ _ _ h1 _ h2 => exact .pre lt ((gram_takes h2).left (h1.adv.suffix.trans a1)) rfl
  | returnNone _ _ h1 _ => exact .pre lt (.nil (h1.adv.suffix.trans a1)) rfl
  | call _ h1 _ h2 => exact .pre lt ((gram_takes h2).left (h1.adv.suffix.trans a1)) rfl
  | let_ _ h1 _ _ h2 h3 =>
    exact .pre lt (((letLeft_takes target_takes h1).left a1).append ((gram_takes h3).left h2.suf))
      (by simp [parts, stmtParts])
  | const_ _ h1 h2 h3 =>
    exact .pre lt (((letLeft_takes (fun h => target_takes h.1) h1).left a1).append ((gram_takes h3).left h2.suf))
      (by simp [parts, stmtParts])
  | unlet _ h1 => exact .pre lt ((lockArgs_takes h1).left a1) rfl
  | lockvar _ h1 h2 => exact .pre lt ((lockArgs_takes h2).left (h1.adv.suffix.trans a1)) rfl
  | unlockvar _ h1 h2 => exact .pre lt ((lockArgs_takes h2).left (h1.adv.suffix.trans a1)) rfl
  | continue_ => exact .pre lt (.nil a1) rfl
  | break_ => exact .pre lt (.nil a1) rfl
  | throw _ h1 => exact .pre lt ((gram_takes h1).left a1) rfl
  | eval _ h1 => exact .pre lt ((gram_takes h1).left a1) rfl
  | echo _ h1 => exact .pre lt ((exprs_takes h1).left a1) rfl
  | echohl _ h1 => exact .pre lt (.nil (h1.1.suf.trans a1)) rfl
  | execute _ h1 => exact .pre lt ((exprs_takes h1).left a1) rfl
  | @heredoc l ls x _ _ fs m _ cm _ body _ _ h1 h2 h3 h4 h5 =>
    have t1 := (letLeft_takes target_takes h1).left a1
    have t2 := h2.shorter (by simp)
    have t3 := hereHead_len h3
    have t4 := trail_takes h4
    have t5 := hLines_len h5
    have t6 := t1.1
    have t7 := t4.1
    rw [List.map_append]
    refine ⟨by omega, ?_⟩
    have f1 : Fit (fs.length + body.length + 1) [.expr (.heredoc ea.cmdpos (strNodes fn fs) m (strNodes fn body))] := by
      refine Fit.node ?_
      simp only [parts, exprParts, List.map_append]
      exact (fit_strs fs).append (fit_strs body)
    have f2 := t4.2.append (Fit.node (n := .stmt (.let_ ea.cmdpos ea cs!"=<<" l ls x
      (.heredoc ea.cmdpos (strNodes fn fs) m (strNodes fn body)))) (by
        simp only [parts, stmtParts, List.map_append]
        simp only [List.map_append] at t1
        exact t1.2.append f1))
    exact f2.mono (by omega)

/-! ### Blocks -/

theorem opens_takes {α : Type} {n} {A : List Cell → α → List Cell → Prop} {used r ea a cm used' r'} {ns : List Node}
    (hA : ∀ {x y}, A x a y → Takes x ns y) (h : Spec.Opens nv env fn n A used r ea a cm used' r') :
    ∃ rx, rx.length < r.length ∧ Takes rx (ns ++ cm.map .stmt) r' := by
  obtain ⟨r0, c, ra, r1, r2, _, h1, h2, h3⟩ := h
  obtain ⟨_, a1, _⟩ := head_track h1
  exact ⟨ra, head_lt h1, ((hA h2).append (trail_takes h3)).left a1.suffix⟩

theorem noArgs_takes {r r'} (h : NoArgs r () r') : Takes r [] r' := by
  cases h
  exact .nil (List.suffix_refl _)

theorem catchArg_takes {p r r'} (h : CatchArg r p r') : Takes r [] r' := by
  refine .nil ?_
  cases h with
  | none h => exact h.adv.suffix
  | pat h _ h1 h2 => exact (h2.adv.suffix.trans h1.suf).trans h.adv.suffix

theorem forArgs_takes {l ls x e r r'} (h : ForArgs env fn r (l, ls, x, e) r') :
    Takes r ((l.toList ++ ls ++ x.toList ++ [e]).map .expr) r' := by
  cases h with
  | mk h1 h2 h3 h4 =>
    rw [List.map_append]
    exact (lhs_takes target_takes h1).append ((gram_takes h4).left (h3.1.suf.trans h2.adv.suffix))

theorem closes_takes {n used r e used' r'} {k : EndKind} (h : Closes nv env fn n used r e used' r') :
    Takes r [.endCmd k e] r' := by
  obtain ⟨r0, ea, c, ra, r1, _, h1, rfl, h2⟩ := h
  obtain ⟨_, a1, _⟩ := head_track h1
  refine .pre (head_lt h1) (.nil ?_) rfl
  split at h2
  · obtain ⟨l, h2⟩ := h2
    exact h2.1.suf.trans a1.suffix
  · rw [h2]
    exact a1.suffix

/-- Modifiers and range without a command. -/
theorem noCommand_takes {r r0 ms rg rc s} (h : Before r r0 ms rg rc) (he : AtEnd rc ∨ headSym rc = .ch '"') :
    Takes r ((if ms = [] ∧ rg = [] then [] else [.excmd (here env fn rc)
        { linepos := here env fn r0, cmdpos := here env fn rc, modifiers := ms, range := rg } s]).map .stmt) rc := by
  have h1 := h.adv.suffix
  have h2 := h.2.1.adv.suffix
  split
  · exact .nil (h1.trans h2)
  · refine .leaf ?_ rfl
    have h3 : rc ≠ r0 := by
      rintro rfl
      rcases he with he | he
      · exact h.2.2.1 he
      · exact h.2.2.2.1 he
    have h4 := h1.length_le
    have h5 := h2.length_le
    have h6 : rc.length ≠ r0.length := fun hl => h3 (h1.eq_of_length hl)
    omega

mutual

theorem body_takes {cx used r ss used' r'} : Body nv env fn cx used r ss used' r' → Takes r (ss.map .stmt) r'
  | .nil => .nil (List.suffix_refl _)
  | .shebang h _ h1 _ => (body_takes h).right ((List.suffix_cons _ _).trans h1.suf)
  | .empty h h1 _ => (body_takes h).right ((List.suffix_cons _ _).trans h1.adv.suffix)
  | .comment h h1 h2 => by
    rw [List.map_append]
    exact (body_takes h).append ((comment_takes h2).left h1.adv.suffix)
  | .noCommand h h1 he _ h2 => by
    rw [List.map_append, List.map_append]
    exact ((body_takes h).append (noCommand_takes h1 he)).append (trail_takes h2)
  | .simple h h1 h2 h3 => by
    rw [List.map_append, List.map_append]
    exact ((body_takes h).append (simple_takes h1 h2)).append (trail_takes h3)
  | .block h h1 h2 => by
    rw [List.map_append, List.map_append]
    exact ((body_takes h).append (block_takes h1)).append (trail_takes h2)

theorem block_takes {cx used r s used' r'} : Block nv env fn cx used r s used' r' → Takes r [.stmt s] r'
  | .function h1 h2 h3 => by
    obtain ⟨rx, t1, t2⟩ := opens_takes funcHead_takes h1
    exact .pre t1 ((t2.append (body_takes h2)).append (closes_takes (k := .function) h3)) (by simp [parts, stmtParts])
  | .while_ h1 h2 h3 => by
    obtain ⟨rx, t1, t2⟩ := opens_takes gram_takes h1
    exact .pre t1 ((t2.append (body_takes h2)).append (closes_takes (k := .while_) h3)) (by simp [parts, stmtParts])
  | .for_ h1 h2 h3 => by
    obtain ⟨rx, t1, t2⟩ := opens_takes forArgs_takes h1
    exact .pre t1 ((t2.append (body_takes h2)).append (closes_takes (k := .for_) h3)) (by simp [parts, stmtParts])
  | .if_ h1 h2 => by
    obtain ⟨rx, t1, t2⟩ := ifPart_takes h1
    exact .pre t1 (t2.append (closes_takes (k := .if_) h2)) (by simp [parts, stmtParts])
  | .ifElse (ea' := ea') (cm := cm) (ss' := ss') h1 h2 h3 h4 => by
    obtain ⟨rx, t1, t2⟩ := ifPart_takes h1
    obtain ⟨ry, u1, u2⟩ := opens_takes noArgs_takes h2
    exact .pre t1 ((t2.append (Takes.pre (n := .stmt (.else_ ea'.cmdpos ea' (cm ++ ss'))) u1 (u2.append (body_takes h3)) (by simp [parts, stmtParts]))).append
      (closes_takes (k := .if_) h4)) (by simp [parts, stmtParts])
  | .try_ h1 h2 => by
    obtain ⟨rx, t1, t2⟩ := tryPart_takes h1
    exact .pre t1 (t2.append (closes_takes (k := .try_) h2)) (by simp [parts, stmtParts])
  | .tryFinally (ea' := ea') (cm := cm) (ss' := ss') h1 h2 h3 h4 => by
    obtain ⟨rx, t1, t2⟩ := tryPart_takes h1
    obtain ⟨ry, u1, u2⟩ := opens_takes noArgs_takes h2
    exact .pre t1 ((t2.append (Takes.pre (n := .stmt (.finally_ ea'.cmdpos ea' (cm ++ ss'))) u1 (u2.append (body_takes h3)) (by simp [parts, stmtParts]))).append
      (closes_takes (k := .try_) h4)) (by simp [parts, stmtParts])

theorem ifPart_takes {cx used r ea ss x eis used' r'} : IfPart nv env fn cx used r ea ss x eis used' r' →
    ∃ rx, rx.length < r.length ∧ Takes rx (.expr x :: (ss ++ eis).map .stmt) r'
  | .if_ h1 h2 => by
    obtain ⟨rx, t1, t2⟩ := opens_takes gram_takes h1
    exact ⟨rx, t1, by simpa using t2.append (body_takes h2)⟩
  | .elseif (ea' := ea') (x' := x') (cm := cm) (ss' := ss') h1 h2 h3 => by
    obtain ⟨rx, t1, t2⟩ := ifPart_takes h1
    obtain ⟨ry, u1, u2⟩ := opens_takes gram_takes h2
    refine ⟨rx, t1, ?_⟩
    have := t2.append (Takes.pre (n := .stmt (.elseIf ea'.cmdpos ea' (cm ++ ss') x')) u1 (u2.append (body_takes h3)) (by simp [parts, stmtParts]))
    simpa using this

theorem tryPart_takes {cx used r ea ss cs used' r'} : TryPart nv env fn cx used r ea ss cs used' r' →
    ∃ rx, rx.length < r.length ∧ Takes rx ((ss ++ cs).map .stmt) r'
  | .try_ h1 h2 => by
    obtain ⟨rx, t1, t2⟩ := opens_takes noArgs_takes h1
    exact ⟨rx, t1, by simpa using t2.append (body_takes h2)⟩
  | .catch_ (ea' := ea') (p := p) (cm := cm) (ss' := ss') h1 h2 h3 => by
    obtain ⟨rx, t1, t2⟩ := tryPart_takes h1
    obtain ⟨ry, u1, u2⟩ := opens_takes catchArg_takes h2
    refine ⟨rx, t1, ?_⟩
    have := t2.append (Takes.pre (n := .stmt (.catch_ ea'.cmdpos ea' (cm ++ ss') p)) u1 (u2.append (body_takes h3)) (by simp [parts, stmtParts]))
    simpa using this

end

end

/-! ### Bytes -/

theorem lineCells_len (n : Nat) : ∀ (c o : Nat) (l : Str), (lineCells n c o l).length = l.length
  | _, _, [] => rfl
  | c, o, x :: l => by simp [lineCells, lineCells_len n _ _ l]

theorem contCells_length (n : Nat) : ∀ (b : Bool) (c : Nat) (l : Str), (contCells n b c l).length ≤ l.length
  | _, _, [] => by simp [contCells]
  | true, c, x :: l => by
    have := contCells_length n (x != '\\') (c + runeLen x) l
    simp only [contCells, List.length_cons]
    omega
  | false, c, x :: l => by
    have := contCells_length n false (c + runeLen x) l
    simp only [contCells, List.length_cons]
    omega

/-- The characters of the lines and one line end each. -/
def cells (ls : List Str) : Nat := (ls.map fun l => l.length + 1).sum

theorem buildRest_length : ∀ (ls : List Str) (n c o : Nat), (buildRest ls n c o).length ≤ cells ls + 1
  | [], _, _, _ => by simp [buildRest, cells]
  | l :: ls, n, c, o => by
    simp only [buildRest, cells, List.map_cons, List.sum_cons]
    split
    · have := contCells_length (n + 2) true 0 l
      have := buildRest_length ls (n + 1) (bytesLen l) (o + bytesLen l + 1)
      simp only [List.length_append, cells] at this ⊢
      omega
    · have := buildRest_length ls (n + 1) (bytesLen l) (o + 1 + bytesLen l)
      simp only [List.length_cons, List.length_append, lineCells_len, cells] at this ⊢
      omega

theorem mkEnv_length (ls : List Str) : (mkEnv ls).buf.length ≤ cells ls := by
  simp only [mkEnv, reindex_length]
  cases ls with
  | nil => simp [buildCells]
  | cons l ls =>
    have := buildRest_length ls 0 (bytesLen l) (bytesLen l)
    simp only [buildCells, List.length_append, lineCells_len, cells, List.map_cons, List.sum_cons] at this ⊢
    omega

theorem decodeGo_length : ∀ (k : Nat) (bs : List UInt8), (decodeGo k bs).length ≤ bs.length
  | _, [] => by simp [decodeGo]
  | k + 1, _ :: bs => by
    have := decodeGo_length k bs
    simp only [decodeGo, List.length_cons]
    omega
  | 0, b :: bs => by
    have := decodeGo_length ((decodeRune b bs).2 - 1) bs
    simp only [decodeGo, List.length_cons]
    omega

theorem dropCR_length (l : List UInt8) : (dropCR l).length ≤ l.length := by
  unfold dropCR
  split <;> simp

theorem scanLines_cells : ∀ (acc bs : List UInt8),
    cells ((scanLines acc bs).map decodeUtf8) ≤ acc.length + bs.length + 1
  | acc, [] => by
    simp only [scanLines]
    split
    · simp [cells]
    · have h1 := dropCR_length acc.reverse
      have h2 := decodeGo_length 0 (dropCR acc.reverse)
      simp only [cells, decodeUtf8, List.map_cons, List.map_nil, List.sum_cons, List.sum_nil, List.length_nil,
        List.length_reverse] at h1 h2 ⊢
      omega
  | acc, b :: bs => by
    simp only [scanLines]
    split
    · have h1 := dropCR_length acc.reverse
      have h2 := decodeGo_length 0 (dropCR acc.reverse)
      have h3 := scanLines_cells [] bs
      simp only [cells, decodeUtf8, List.map_cons, List.sum_cons, List.length_nil, List.length_cons,
        List.length_reverse] at h1 h2 h3 ⊢
      omega
    · split
      · simp [cells]
      · have h3 := scanLines_cells (b :: acc) bs
        simp only [List.length_cons] at h3 ⊢
        omega

end Viml
