/-
The positions of a tree of the file grammar are in source order.
-/
import Verif.Lemmas.OrderExpr
import Verif.Lemmas.FileSimple

namespace Viml
open Spec

section
variable {nv : Bool} {env : Env} {fn : Str} {s : Bool}

/-- If a line ends after `x`, what comes before on the line is before that. -/
theorem Adv.line_suffix {r x e r'} {c : Cell} (h : Adv r x) (h' : Reads r e (c :: r')) (hc : c.c = none) : r' <:+ x := by
  obtain ⟨p, rfl, hp⟩ := h
  obtain ⟨p', h1, h2⟩ := h'
  rcases List.append_eq_append_iff.1 h1 with ⟨a, rfl, rfl⟩ | ⟨a, rfl, h3⟩
  · exact (List.suffix_cons _ _).trans ⟨a, rfl⟩
  · cases a with
    | nil =>
      simp only [List.nil_append] at h3
      rw [← h3]
      exact List.suffix_cons _ _
    | cons d a =>
      simp only [List.cons_append, List.cons.injEq] at h3
      obtain ⟨rfl, _⟩ := h3
      exact absurd hc (hp c (by simp))

theorem Adv.rest_suffix {r x l r'} (h : Adv r x) (h' : RestOf r l r') : r' <:+ x := by
  obtain ⟨h1, h2⟩ := h'
  obtain ⟨p, rfl, hp⟩ := h
  obtain ⟨p', h3, h4⟩ := h1
  have h7 := h2
  rcases List.append_eq_append_iff.1 h3 with ⟨a, rfl, rfl⟩ | ⟨a, rfl, rfl⟩
  · exact ⟨a, rfl⟩
  · cases a with
    | nil => exact List.suffix_refl _
    | cons d a =>
      have h5 := hp d (by simp)
      cases hd : d.c with
      | none => exact absurd hd h5
      | some ch =>
        rcases h7 with h7 | h7 <;> simp [headSym, Cell.sym, hd] at h7

theorem Options.pos {c : Cmd} {a b : Ast.ExArg} {r r'} (h : Options c a r b r') :
    b.linepos = a.linepos ∧ b.cmdpos = a.cmdpos ∧ b.argpos = a.argpos := by
  obtain ⟨e1, r1, e2, r2, e3, r3, e4, r4, h1, h2, h3, h4, h5⟩ := h
  have g1 : e1.linepos = a.linepos ∧ e1.cmdpos = a.cmdpos ∧ e1.argpos = a.argpos := by
    rcases h1 with ⟨_, h⟩ | ⟨_, rfl, _⟩
    · clear h2
      induction h with
      | nil => exact ⟨rfl, rfl, rfl⟩
      | cons h _ _ ih => cases h <;> exact ih
    · exact ⟨rfl, rfl, rfl⟩
  have g2 : e2.linepos = e1.linepos ∧ e2.cmdpos = e1.cmdpos ∧ e2.argpos = e1.argpos := by
    cases h2 <;> exact ⟨rfl, rfl, rfl⟩
  have g3 : e3.linepos = e2.linepos ∧ e3.cmdpos = e2.cmdpos ∧ e3.argpos = e2.argpos := by
    cases h3 <;> exact ⟨rfl, rfl, rfl⟩
  have g4 : e4.linepos = e3.linepos ∧ e4.cmdpos = e3.cmdpos ∧ e4.argpos = e3.argpos := by
    cases h4 <;> exact ⟨rfl, rfl, rfl⟩
  have g5 : b.linepos = e4.linepos ∧ b.cmdpos = e4.cmdpos ∧ b.argpos = e4.argpos := by
    rcases h5 with ⟨_, h⟩ | ⟨_, rfl, _⟩
    · cases h <;> exact ⟨rfl, rfl, rfl⟩
    · exact ⟨rfl, rfl, rfl⟩
  simp [g1, g2, g3, g4, g5]

theorem head_track {used used' r r0 ea c ra r'} (h : CmdHead nv env fn used r r0 ea c ra r' used') :
    Adv r0 ra ∧ Adv ra r' ∧ Track env fn false r (cmdPlaces ea.cmdpos ea) ra := by
  obtain ⟨ms, rg, rc, r1, b, r2, h1, h2, h3, h4, h5, h6, h7⟩ := h.ex
  obtain ⟨p1, p2, p3⟩ := Options.pos h7
  have a2 : Adv rc ra := by
    obtain ⟨t, ht⟩ := h4.reads
    refine (ht.adv.trans h5.adv).trans ?_
    rcases h6 with ⟨_, rfl⟩ | ⟨_, h6⟩
    · exact Adv.refl _
    · exact h6.adv
  refine ⟨h1.adv.trans a2, h7.adv, ?_⟩
  rw [cmdPlaces, p1, p2, p3]
  exact .cons h1.2.1.adv.suffix (by simp) (.cons h1.adv.suffix (by simp) (.cons (List.suffix_refl _) (by simp)
    (.cons a2.suffix (by simp) (.refl _))))

/-- A comment and a line end. -/
theorem trail_track {r cm r'} (h : Trail env fn r cm r') : ∃ l, WrittenL cm l ∧ Track env fn false r l r' := by
  cases h with
  | eof h => exact ⟨[], .nil, .nil h.adv.suffix⟩
  | eol h => exact ⟨[], .nil, .nil ((List.suffix_cons _ _).trans h.adv.suffix)⟩
  | bar h h1 => exact ⟨[], .nil, .nil (h1.suf.trans h.adv.suffix)⟩
  | comment h h1 =>
    cases h1 with
    | mk h1 h2 h3 =>
      exact ⟨[_] ++ [] ++ [] ++ [], .cons (.mk .nil) .nil, .cons h.adv.suffix (by simp)
        (.nil (((List.suffix_cons _ _).trans h2.suf).trans h1.suf))⟩

/-! ### Targets -/

theorem lvStart_track {r e r'} (h : LvStart env fn r e r') : Track env fn s r (places (!s) e) r' := by
  cases h with
  | lit h1 h2 _ =>
    rw [places]
    exact Track.lex h1 h2.ne_eof
  | name h1 _ h2 _ =>
    refine nameNode_track h1.suf (parts_track h2) ?_
    rintro q v rfl
    cases h2
    rfl
  | sid h1 h2 h3 h4 =>
    refine nameNode_track h1.suf ?_ ?_
    · rw [placesL, places]
      refine (Track.text (List.suffix_refl _) h2 ?_).append (parts_track h4)
      rintro rfl
      cases h3
    · rintro q v h
      cases h
      rfl

theorem lv_track {r e r'} (h : LvChain env fn r e r') : Track env fn s r (places (!s) e) r' := by
  induction h with
  | start h => exact lvStart_track h
  | subscript _ _ h2 h3 h4 ih =>
    rw [places]
    exact ((ih.append (.mark h2 (by simp))).append (gram_track h3)).right h4.suf
  | slice _ _ h2 h3 h4 h5 h6 ih =>
    rw [places]
    exact (((ih.append (.mark h2 (by simp))).append (opt_track h3)).append ((opt_track h5).left h4.suf)).right h6.suf
  | dot _ _ _ h2 h3 ih =>
    rw [places]
    exact ih.append ((Track.mark h2 (by simp)).append (Track.text (List.suffix_refl _) h3.1 h3.2.1.1))

/-- All of the expressions are in strict order. -/
def Strict (env : Env) (fn : Str) (es : List Ast.Expr) : Prop :=
  ∀ e ∈ es, ∃ a b, a <:+ env.buf ∧ Track env fn true a (places false e) b

/-- A phrase that starts at `r` with expressions `es`: they are in order and in strict order. -/
def Line (env : Env) (fn : Str) (r : List Cell) (es : List Ast.Expr) (r' : List Cell) : Prop :=
  Track env fn false r (placesL true es) r' ∧ (r <:+ env.buf → Strict env fn es)

theorem placesL_append (all : Bool) (a b : List Ast.Expr) : placesL all (a ++ b) = placesL all a ++ placesL all b := by
  induction a with
  | nil => rw [placesL]; rfl
  | cons e es ih => rw [List.cons_append, placesL, placesL, ih, List.append_assoc]

theorem Line.nil {r r'} (h : r' <:+ r) : Line env fn r [] r' := ⟨by rw [placesL]; exact .nil h, fun _ _ h => nomatch h⟩

theorem Line.one {r e r'} (h : ∀ s, Track env fn s r (places (!s) e) r') : Line env fn r [e] r' := by
  refine ⟨?_, ?_⟩
  · rw [placesL, placesL, List.append_nil]
    exact h false
  · intro hr e' he
    cases List.mem_singleton.1 he
    exact ⟨r, r', hr, h true⟩

theorem Line.append {r a r1 b r'} (h : Line env fn r a r1) (h' : Line env fn r1 b r') : Line env fn r (a ++ b) r' := by
  refine ⟨?_, ?_⟩
  · rw [placesL_append]
    exact h.1.append h'.1
  · intro hr e he
    rcases List.mem_append.1 he with he | he
    · exact h.2 hr e he
    · exact h'.2 (h.1.suffix.trans hr) e he

theorem Line.left {r0 r a r'} (h : Line env fn r a r') (h0 : r <:+ r0) : Line env fn r0 a r' :=
  ⟨h.1.left h0, fun hr => h.2 (h0.trans hr)⟩

theorem Line.right {r a r' r''} (h : Line env fn r a r') (h0 : r'' <:+ r') : Line env fn r a r'' :=
  ⟨h.1.right h0, h.2⟩

theorem gram_line {k r e r'} (h : Gram env fn k r e r') : Line env fn r [e] r' := .one fun _ => gram_track h
theorem lv_line {r e r'} (h : Lv env fn r e r') : Line env fn r [e] r' := .one fun _ => lv_track h.1
theorem target_line {r e r'} (h : Target env fn r e r') : Line env fn r [e] r' := lv_line h.1

theorem targetList_line {r es x r'} (h : TargetList env fn r es x r') : Line env fn r (es ++ x.toList) r' := by
  induction h with
  | last h1 h2 => exact (target_line h1).right h2.suf
  | cons h1 h2 _ ih => exact (target_line h1).append (ih.left h2.suf)
  | rest h1 h2 h3 h4 => exact (target_line h1).append (((target_line h3).right h4.suf).left h2.suf)

theorem lhs_line {S : List Cell → Ast.Expr → List Cell → Prop} (hS : ∀ {r e r'}, S r e r' → Line env fn r [e] r')
    {r l ls x r'} (h : LhsAt env fn S r l ls x r') : Line env fn r (l.toList ++ ls ++ x.toList) r' := by
  cases h with
  | one _ h => exact hS h
  | list h h1 => exact (targetList_line h1).left h.suf

theorem targets_line {r es r'} (h : Targets env fn r es r') : Line env fn r es r' := by
  induction h with
  | nil h _ => exact .nil h.adv.suffix
  | cons h1 _ h2 _ ih => exact ((target_line h2).left h1.adv.suffix).append ih

theorem lockArgs_line {r es r'} (h : LockArgs env fn r es r') : Line env fn r es r' := by
  cases h with
  | mk h1 h2 => exact (gram_line h1).append (targets_line h2)

theorem exprs_line {r es r'} (h : Exprs env fn r es r') : Line env fn r es r' := by
  induction h with
  | nil h _ => exact .nil h.adv.suffix
  | cons h1 _ h2 _ ih => exact ((gram_line h2).left h1.adv.suffix).append ih

theorem letLeft_line {S : List Cell → Ast.Expr → List Cell → Prop} (hS : ∀ {r e r'}, S r e r' → Line env fn r [e] r')
    {r l ls x r'} (h : LetLeft env fn S r l ls x r') : Line env fn r (l.toList ++ ls ++ x.toList) r' := by
  obtain ⟨r1, r2, h1, _, h2, h3⟩ := h
  exact ((lhs_line hS h2).left h1.adv.suffix).right h3.adv.suffix

/-! ### Functions -/

theorem argname_dots {v : Str} (h : isargname v = true) : v ≠ cs!"..." := by
  rintro rfl
  revert h
  decide

/-- Named parameters. -/
def named (is : List Ast.Ident) : Nat := (is.filter (·.name ≠ cs!"...")).length

theorem param_name {used d r i ds r'} (h : Param env fn used d r i ds r') : i.name ≠ cs!"..." := by
  cases h with
  | plain _ _ h => exact argname_dots h
  | default _ _ h => exact argname_dots h

theorem named_cons {i : Ast.Ident} {is} (h : i.name ≠ cs!"...") : named (i :: is) = named is + 1 := by
  simp [named, h]

theorem params_named {used d r is ds r'} (h : ParamList env fn used d r is ds r') :
    ds.length ≤ named is ∧ (d = true → ds.length = named is) := by
  induction h with
  | dots h1 h2 =>
    rename_i t _ _ _ _
    have : t.value = cs!"..." := by
      cases h1 with
      | eof => cases h2
      | eol => cases h2
      | text w r r1 ty v r' _ _ _ h => cases h <;> simp_all
    simp [named, this]
  | last h _ =>
    have := named_cons (is := []) (param_name h)
    rw [this]
    cases h with
    | plain _ _ _ _ _ hd => simp [hd]
    | default => simp [named]
  | comma h _ _ _ =>
    have := named_cons (is := []) (param_name h)
    rw [this]
    cases h with
    | plain _ _ _ _ _ hd => simp [hd]
    | default => simp [named]
  | cons h _ _ _ _ ih =>
    rw [named_cons (param_name h)]
    cases h with
    | plain _ _ _ _ _ hd =>
      simp only [hd, List.nil_append] at ih ⊢
      simp
      omega
    | default => 
      have := ih.2 (by simp)
      simp
      omega

theorem param_track {used d r i ds r'} (h : Param env fn used d r i ds r') :
    Track env fn false r (i.pos :: placesL true ds) r' ∧ (r <:+ env.buf → Strict env fn ds) := by
  cases h with
  | plain h1 h2 =>
    rw [placesL]
    exact ⟨Track.lex h1 (by simp [h2]), fun _ _ h => nomatch h⟩
  | default h1 h2 _ _ h3 h4 =>
    have h5 := gram_line h4
    have h6 : Track env fn false r [pubPos fn _] _ := Track.lex h1 (by simp [h2])
    exact ⟨h6.append (h5.1.left h3.suf), fun hr => h5.2 ((h3.suf.trans h6.suffix).trans hr)⟩

theorem paramPlaces_nil (i : Ast.Ident) : paramPlaces [i] [] = [i.pos] := by
  rw [paramPlaces]
  split <;> rw [paramPlaces, placesL]

theorem paramPlaces_last {used d r i ds r'} (h : Param env fn used d r i ds r') :
    paramPlaces [i] ds = i.pos :: placesL true ds := by
  have hn := param_name h
  cases h with
  | plain => rw [paramPlaces_nil, placesL]
  | default => simp [paramPlaces, hn, placesL]

theorem paramPlaces_cons {used d r i ds is es r'} (h : Param env fn used d r i ds r') (h1 : es.length ≤ named is)
    (h2 : (d || !ds.isEmpty) = true → es.length = named is) :
    paramPlaces (i :: is) (ds ++ es) = (i.pos :: placesL true ds) ++ paramPlaces is es := by
  have hc := named_cons (is := is) (param_name h)
  rw [paramPlaces.eq_def]
  cases h with
  | plain =>
    dsimp only
    rw [if_neg]
    · rw [placesL]; rfl
    · show ¬ named _ ≤ _
      rw [hc]
      simp only [List.nil_append]
      omega
  | default =>
    dsimp only
    rw [if_pos]
    · simp [placesL]
    · show named _ ≤ _
      rw [hc]
      have := h2 (by simp)
      simp
      omega

theorem params_track {used d r is ds r'} (h : ParamList env fn used d r is ds r') :
    Track env fn false r (paramPlaces is ds) r' ∧ (r <:+ env.buf → Strict env fn ds) := by
  induction h with
  | dots h1 h2 h3 =>
    rw [paramPlaces_nil]
    exact ⟨(Track.lex h1 (by simp [h2])).right h3.suf, fun _ _ h => nomatch h⟩
  | last h h1 =>
    rw [paramPlaces_last h]
    exact ⟨(param_track h).1.right h1.suf, (param_track h).2⟩
  | comma h _ h1 h2 =>
    rw [paramPlaces_last h]
    exact ⟨(param_track h).1.right (h2.suf.trans h1.suf), (param_track h).2⟩
  | cons h _ h1 _ h2 ih =>
    obtain ⟨t1, t2⟩ := param_track h
    have hn := params_named h2
    refine ⟨?_, ?_⟩
    · have hp := paramPlaces_cons h hn.1 hn.2
      rw [hp]
      exact t1.append (ih.1.left h1.suf)
    · intro hr e he
      rcases List.mem_append.1 he with he | he
      · exact t2 hr e he
      · exact ih.2 ((h1.suf.trans t1.suffix).trans hr) e he

theorem funcHead_track {r e is ds at_ r'} (h : FuncHead env fn r e is ds at_ r') :
    Track env fn false r (places true e ++ paramPlaces is ds) r' ∧ (r <:+ env.buf → Strict env fn (e :: ds)) := by
  cases h with
  | mk h1 _ _ h2 _ h3 h4 h5 h6 =>
    have t1 : Line env fn r [e] _ := ((lv_line h2.1).left h1.adv.suffix).right (h4.suf.trans h3.adv.suffix)
    have t2 : ∀ {x y}, FuncParamsAt env fn x is ds y → r' <:+ y →
        Track env fn false x (paramPlaces is ds) r' ∧ (x <:+ env.buf → Strict env fn ds) := by
      intro x y h5 h6
      cases h5 with
      | none h => exact ⟨by rw [paramPlaces, placesL]; exact .nil (h6.trans h.suf), fun _ _ h => nomatch h⟩
      | some _ h => exact ⟨(params_track h).1.right h6, (params_track h).2⟩
    have t2 := t2 h5 h6.adv.suffix
    refine ⟨?_, ?_⟩
    · have := t1.1
      rw [placesL, placesL, List.append_nil] at this
      exact this.append t2.1
    · intro hr x hx
      rcases List.mem_cons.1 hx with rfl | hx
      · exact t1.2 hr _ (by simp)
      · exact t2.2 (t1.1.suffix.trans hr) x hx

/-! ### Heredocs -/

theorem strNodes_places (all : Bool) (l : List (Pos × Str)) :
    placesL all (strNodes fn l) = l.map fun x => pubPos fn x.1 := by
  induction l with
  | nil => rw [strNodes, List.map_nil, placesL, List.map_nil]
  | cons x l ih =>
    rw [strNodes, List.map_cons, placesL, places, List.map_cons, ← ih]
    rfl

theorem hereHead_track {r fs m r'} (h : HereHead env r fs m r') :
    Track env fn s r (fs.map fun x => pubPos fn x.1) r' := by
  induction h with
  | marker h1 h2 _ => exact .nil (h2.1.suf.trans h1.adv.suffix)
  | flag h1 h2 _ _ ih => exact (Track.text h1.adv.suffix h2.1 (by simp)).append ih

theorem hLines_track {m r ls r'} (h : HLines env m r ls r') :
    Track env fn s r (ls.map fun x => pubPos fn x.1) r' := by
  induction h with
  | done h _ => exact .nil h.suf
  | cons h1 _ _ _ ih =>
    refine Track.append (l := [_]) (.cons (List.suffix_refl _) ?_ (.nil ?_)) ih
    · rintro _ rfl
      simpa using h1.suf
    · cases s
      · exact (List.suffix_cons _ _).trans h1.suf
      · obtain ⟨p, rfl, _⟩ := h1
        cases p with
        | nil => exact List.suffix_refl _
        | cons c p => exact (List.suffix_cons _ _).trans (List.suffix_append _ _)

/-! ### Commands kept as text -/

theorem rawRun_suffix {c : Cmd} {ra pc t r t' e} (h : RawRun env fn c ra pc t r t' e) : e <:+ r := by
  induction h with
  | eol => exact List.suffix_refl _
  | stop => exact List.suffix_refl _
  | ctrlV h1 h2 _ ih => exact (ih.trans h2.suf).trans h1.suf
  | ctrlVEnd h => exact h.suf
  | expr _ h1 h2 h3 _ ih =>
    exact ((ih.trans h3.suf).trans (gram_track (s := false) h2).suffix).trans h1.suf
  | char h _ _ _ _ ih => exact ih.trans h.suf

theorem rawText_suffix {c : Cmd} {f r0 ra r s r'} (h : RawText env fn c f r0 ra r s r') : r' <:+ r := by
  cases h with
  | bar _ _ h1 h2 h3 _ =>
    refine (rawRun_suffix h3).trans ?_
    by_cases hc : c.name ∈ grepCmds
    · exact (h1 hc).adv.suffix
    · rw [h2 hc]
      exact List.suffix_refl _
  | line _ h _ => exact h.1.suf

theorem blockOf_suffix {r0 ra m s r'} (h0 : Adv r0 ra) (h : BlockOf r0 m s r') : r' <:+ ra := by
  obtain ⟨_, _, _, _, h1, h2, h3, _⟩ := h
  exact h3.suffix.trans (h0.line_suffix h1 h2)

theorem raw_suffix {c : Cmd} {top f r0 ra r s r'} (h0 : Adv r0 ra) (h1 : r <:+ ra)
    (h : Raw env fn top r0 ra f c r s r') : r' <:+ ra := by
  cases h with
  | common _ h => exact (rawText_suffix h).trans h1
  | finish _ _ h => exact (rawText_suffix h).trans h1
  | finishTop => exact List.nil_suffix
  | append _ h => exact blockOf_suffix h0 h
  | keymap => exact List.nil_suffix
  | script _ _ _ _ _ h => exact blockOf_suffix h0 h
  | scriptLine _ _ _ h => exact h0.rest_suffix h
  | wincmd _ h h2 h3 => exact (h3.adv.suffix.trans h.adv.suffix).trans h1
  | «syntax» _ h _ => exact h.adv.suffix.trans h1

/-! ### Statements -/

theorem written_append {a l b l'} : WrittenL a l → WrittenL b l' → WrittenL (a ++ b) (l ++ l')
  | .nil, h => h
  | .cons h1 h2, h => by
    rw [List.append_assoc]
    exact .cons h1 (written_append h2 h)
  | .heredoc h2, h => by
    rw [List.append_assoc]
    exact .heredoc (written_append h2 h)

/-- The statements from `r` to `r'` are in order, and their expressions in strict order. -/
def SL (env : Env) (fn : Str) (r : List Cell) (ss : List Ast.Stmt) (r' : List Cell) : Prop :=
  (∃ l, WrittenL ss l ∧ Track env fn false r l r') ∧
  (r <:+ env.buf → ∀ s ∈ ss, ∀ ctx, AllS (fun _ s => Strict env fn (exprsOf s)) ctx s)

theorem SL.suffix {r ss r'} (h : SL env fn r ss r') : r' <:+ r := by
  obtain ⟨⟨_, _, h⟩, _⟩ := h
  exact h.suffix

theorem SL.nil {r r'} (h : r' <:+ r) : SL env fn r [] r' := ⟨⟨_, .nil, .nil h⟩, fun _ _ h => nomatch h⟩

theorem SL.append {r a r1 b r'} (h : SL env fn r a r1) (h' : SL env fn r1 b r') : SL env fn r (a ++ b) r' := by
  have hx := h.suffix
  obtain ⟨⟨l, h1, h2⟩, h3⟩ := h
  obtain ⟨⟨l', h1', h2'⟩, h3'⟩ := h'
  refine ⟨⟨_, written_append h1 h1', h2.append h2'⟩, ?_⟩
  intro hr s hs
  rcases List.mem_append.1 hs with hs | hs
  · exact h3 hr s hs
  · exact h3' (hx.trans hr) s hs

theorem SL.left {r0 r a r'} (h : SL env fn r a r') (h0 : r <:+ r0) : SL env fn r0 a r' := by
  obtain ⟨⟨l, h1, h2⟩, h3⟩ := h
  exact ⟨⟨l, h1, h2.left h0⟩, fun hr => h3 (h0.trans hr)⟩

theorem SL.right {r a r' r''} (h : SL env fn r a r') (h0 : r'' <:+ r') : SL env fn r a r'' := by
  obtain ⟨⟨l, h1, h2⟩, h3⟩ := h
  exact ⟨⟨l, h1, h2.right h0⟩, h3⟩

/-- One statement with its body. -/
theorem SL.one {s r r1 r2 r'} (h1 : Track env fn false r (headPlaces s) r1)
    (h2 : r <:+ env.buf → Strict env fn (exprsOf s)) (h3 : SL env fn r1 (subStmts s) r2)
    (h4 : Track env fn false r2 ((endOf s).toList.flatMap fun e => cmdPlaces e.pos e.ea) r') : SL env fn r [s] r' := by
  obtain ⟨⟨l, h5, h6⟩, h7⟩ := h3
  refine ⟨⟨_, .cons (.mk h5) .nil, ?_⟩, ?_⟩
  · rw [List.append_nil]
    exact (h1.append h6).append h4
  · intro hr s' hs ctx
    cases List.mem_singleton.1 hs
    exact .mk _ _ (h2 hr) fun x hx => h7 (h1.suffix.trans hr) x hx _

/-- A statement without body. -/
theorem SL.cmd {used used' r r0 ea c ra r1 r' s} (h : CmdHead nv env fn used r r0 ea c ra r1 used')
    (h1 : headPlaces s = cmdPlaces ea.cmdpos ea ++ placesL true (exprsOf s)) (h2 : subStmts s = []) (h3 : endOf s = none)
    (h4 : Line env fn ra (exprsOf s) r') : SL env fn r [s] r' := by
  obtain ⟨_, _, t⟩ := head_track h
  refine SL.one (r1 := r') (r2 := r') ?_ (fun hr => h4.2 (t.suffix.trans hr)) ?_ ?_
  · rw [h1]
    exact t.append h4.1
  · rw [h2]
    exact .nil (List.suffix_refl _)
  · rw [h3]
    exact .refl _

theorem trail_order {r cm r'} (h : Trail env fn r cm r') : SL env fn r cm r' := by
  refine ⟨trail_track h, ?_⟩
  intro _ s hs ctx
  cases h with
  | eof => cases hs
  | eol => cases hs
  | bar => cases hs
  | comment _ h =>
    cases h
    cases List.mem_singleton.1 hs
    exact .mk _ _ (fun _ h => nomatch h) (fun _ h => nomatch h)

theorem simple_order {used used' cx r0 ea c ra r r1 xs r'} (h : CmdHead nv env fn used r1 r0 ea c ra r used')
    (hs : Spec.Simple env fn cx r0 ra ea c r xs r') : SL env fn r1 xs r' := by
  obtain ⟨a0, a1, t⟩ := head_track h
  have a1 := a1.suffix
  cases hs with
  | raw hr => exact .cmd h (by simp [headPlaces, exArgOf, stmtPos, exprsOf]) rfl rfl (.nil (raw_suffix a0 a1 hr))
  | funcListing _ _ hr =>
    exact .cmd h (by simp [headPlaces, exArgOf, stmtPos, exprsOf]) rfl rfl (.nil ((rawText_suffix hr).trans a1))
  | letListing _ _ hr =>
    exact .cmd h (by simp [headPlaces, exArgOf, stmtPos, exprsOf]) rfl rfl (.nil ((rawText_suffix hr).trans a1))
  | constListing _ _ hr =>
    exact .cmd h (by simp [headPlaces, exArgOf, stmtPos, exprsOf]) rfl rfl (.nil ((rawText_suffix hr).trans a1))
  | delfunction _ h1 =>
    exact .cmd h (by simp [headPlaces, exArgOf, stmtPos, exprsOf]) rfl rfl ((lv_line h1.1).left a1)
  | return_ _ _ h1 _ h2 =>
    exact .cmd h (by simp [headPlaces, exArgOf, stmtPos, exprsOf]) rfl rfl ((gram_line h2).left (h1.adv.suffix.trans a1))
  | returnNone _ _ h1 _ =>
    exact .cmd h (by simp [headPlaces, exArgOf, stmtPos, exprsOf]) rfl rfl (.nil (h1.adv.suffix.trans a1))
  | call _ h1 _ h2 =>
    exact .cmd h (by simp [headPlaces, exArgOf, stmtPos, exprsOf]) rfl rfl ((gram_line h2).left (h1.adv.suffix.trans a1))
  | let_ _ h1 _ _ h2 h3 =>
    exact .cmd h (by simp [headPlaces, exArgOf, stmtPos, exprsOf]) rfl rfl
      (((letLeft_line target_line h1).left a1).append ((gram_line h3).left h2.suf))
  | const_ _ h1 h2 h3 =>
    exact .cmd h (by simp [headPlaces, exArgOf, stmtPos, exprsOf]) rfl rfl
      (((letLeft_line (fun h => target_line h.1) h1).left a1).append ((gram_line h3).left h2.suf))
  | unlet _ h1 =>
    exact .cmd h (by simp [headPlaces, exArgOf, stmtPos, exprsOf]) rfl rfl ((lockArgs_line h1).left a1)
  | lockvar _ h1 h2 =>
    exact .cmd h (by simp [headPlaces, exArgOf, stmtPos, exprsOf]) rfl rfl ((lockArgs_line h2).left (h1.adv.suffix.trans a1))
  | unlockvar _ h1 h2 =>
    exact .cmd h (by simp [headPlaces, exArgOf, stmtPos, exprsOf]) rfl rfl ((lockArgs_line h2).left (h1.adv.suffix.trans a1))
  | continue_ => exact .cmd h (by simp [headPlaces, exArgOf, stmtPos, exprsOf]) rfl rfl (.nil a1)
  | break_ => exact .cmd h (by simp [headPlaces, exArgOf, stmtPos, exprsOf]) rfl rfl (.nil a1)
  | throw _ h1 => exact .cmd h (by simp [headPlaces, exArgOf, stmtPos, exprsOf]) rfl rfl ((gram_line h1).left a1)
  | eval _ h1 => exact .cmd h (by simp [headPlaces, exArgOf, stmtPos, exprsOf]) rfl rfl ((gram_line h1).left a1)
  | echo _ h1 => exact .cmd h (by simp [headPlaces, exArgOf, stmtPos, exprsOf]) rfl rfl ((exprs_line h1).left a1)
  | echohl _ h1 => exact .cmd h (by simp [headPlaces, exArgOf, stmtPos, exprsOf]) rfl rfl (.nil (h1.1.suf.trans a1))
  | execute _ h1 => exact .cmd h (by simp [headPlaces, exArgOf, stmtPos, exprsOf]) rfl rfl ((exprs_line h1).left a1)
  | heredoc _ h1 h2 h3 h4 h5 =>
    have t1 := (letLeft_line target_line h1).left a1
    have t2 := fun s => (hereHead_track (fn := fn) (s := s) h3).left h2.suf
    have t3 := fun s => hLines_track (fn := fn) (s := s) h5
    have t4 := trail_order h4
    refine ⟨?_, ?_⟩
    · obtain ⟨⟨l, w, t5⟩, _⟩ := t4
      have key : Track env fn false r1 _ r' := (((t.append t1.1).append (t2 false)).append t5).append (t3 false)
      cases h4 with
      | comment _ hc =>
        cases hc
        cases w with
        | cons w1 w2 =>
          cases w1 with
          | mk w3 =>
            cases w3
            cases w2
            refine ⟨_, .heredoc .nil, ?_⟩
            rw [strNodes_places, strNodes_places, List.append_nil]
            simpa [headPlaces, endOf] using key
      | _ =>
        have hl : l = [] := by
          cases w
          rfl
        rw [hl] at key
        refine ⟨_, .cons (.mk .nil) .nil, ?_⟩
        simp only [headPlaces, exArgOf, stmtPos, exprsOf, endOf, Option.toList_some, List.flatMap_cons, List.flatMap_nil,
          placesL_append, placesL, places, strNodes_places, Option.toList_none, List.append_nil]
        simpa [placesL_append] using key
    · intro hr s hs ctx
      rcases List.mem_append.1 hs with hs | hs
      · exact t4.2 (((t2 false).suffix.trans (t.append t1.1).suffix).trans hr) s hs ctx
      · cases List.mem_singleton.1 hs
        refine .mk _ _ ?_ (fun _ h => nomatch h)
        intro e he
        simp only [exprsOf] at he
        rcases List.mem_append.1 he with he | he
        · exact t1.2 (t.suffix.trans hr) e he
        · cases List.mem_singleton.1 he
          refine ⟨_, r', (t.append t1.1).suffix.trans hr, ?_⟩
          rw [places, strNodes_places, strNodes_places]
          exact (t2 true).append ((t3 true).left t4.suffix)

/-! ### Blocks -/

/-- The head of a block and the comment after it. -/
theorem opens_order {α : Type} {n} {A : List Cell → α → List Cell → Prop} {used r ea a cm used' r' l} {es : List Ast.Expr}
    (hA : ∀ {x y}, A x a y → Track env fn false x l y ∧ (x <:+ env.buf → Strict env fn es))
    (h : Spec.Opens nv env fn n A used r ea a cm used' r') :
    ∃ rx, Track env fn false r (cmdPlaces ea.cmdpos ea ++ l) rx ∧ (r <:+ env.buf → Strict env fn es) ∧ SL env fn rx cm r' := by
  obtain ⟨r0, c, ra, r1, r2, _, h1, h2, h3⟩ := h
  obtain ⟨_, a1, t⟩ := head_track h1
  obtain ⟨t1, t2⟩ := hA h2
  exact ⟨r2, t.append (t1.left a1.suffix), fun hr => t2 ((a1.suffix.trans t.suffix).trans hr), trail_order h3⟩

theorem gramArg {x : Ast.Expr} {r r'} (h : Gram env fn 1 r x r') :
    Track env fn false r (placesL true [x]) r' ∧ (r <:+ env.buf → Strict env fn [x]) := gram_line h

theorem noArg {r r'} (h : NoArgs r () r') :
    Track env fn false r [] r' ∧ (r <:+ env.buf → Strict env fn []) := by
  cases h
  exact ⟨.refl _, fun _ _ h => nomatch h⟩

theorem catchArg {p r r'} (h : CatchArg r p r') :
    Track env fn false r [] r' ∧ (r <:+ env.buf → Strict env fn []) := by
  refine ⟨.nil ?_, fun _ _ h => nomatch h⟩
  cases h with
  | none h => exact h.adv.suffix
  | pat h _ h1 h2 => exact (h2.adv.suffix.trans h1.suf).trans h.adv.suffix

theorem forArg {l ls x e r r'} (h : ForArgs env fn r (l, ls, x, e) r') :
    Track env fn false r (placesL true (l.toList ++ ls ++ x.toList ++ [e])) r' ∧
      (r <:+ env.buf → Strict env fn (l.toList ++ ls ++ x.toList ++ [e])) := by
  cases h with
  | mk h1 h2 h3 h4 => exact (lhs_line target_line h1).append ((gram_line h4).left (h3.1.suf.trans h2.adv.suffix))

theorem closes_track {n used r e used' r'} (h : Closes nv env fn n used r e used' r') :
    Track env fn false r (cmdPlaces e.pos e.ea) r' := by
  obtain ⟨r0, ea, c, ra, r1, _, h1, rfl, h2⟩ := h
  obtain ⟨_, a1, t⟩ := head_track h1
  refine t.right ?_
  split at h2
  · obtain ⟨l, h2⟩ := h2
    exact h2.1.suf.trans a1.suffix
  · rw [h2]
    exact a1.suffix

theorem SL.block {s r r1 r2 r' e} (h1 : Track env fn false r (headPlaces s) r1)
    (h2 : r <:+ env.buf → Strict env fn (exprsOf s)) (h3 : SL env fn r1 (subStmts s) r2) (h4 : endOf s = some e)
    (h5 : Track env fn false r2 (cmdPlaces e.pos e.ea) r') : SL env fn r [s] r' := by
  refine SL.one h1 h2 h3 ?_
  rw [h4]
  simpa using h5

/-- A part of a block that has no end of its own. -/
theorem SL.part {s r r1 r'} (h1 : Track env fn false r (headPlaces s) r1)
    (h2 : r <:+ env.buf → Strict env fn (exprsOf s)) (h3 : SL env fn r1 (subStmts s) r') (h4 : endOf s = none) :
    SL env fn r [s] r' := by
  refine SL.one h1 h2 h3 ?_
  rw [h4]
  exact .refl _

theorem comment_order {r s r'} (h : Comment env fn r s r') : SL env fn r [s] r' := by
  cases h with
  | mk h1 h2 h3 =>
    refine SL.part (r1 := _) (.cons (List.suffix_refl _) (by simp) (.nil ?_)) (fun _ _ h => nomatch h) (.nil (List.suffix_refl _)) rfl
    exact ((List.suffix_cons _ _).trans h2.suf).trans h1.suf

/-- Modifiers and range without a command. -/
theorem noCommand_order {r r0 ms rg rc s} (h : Before r r0 ms rg rc) :
    SL env fn r (if ms = [] ∧ rg = [] then [] else [.excmd (here env fn rc)
        { linepos := here env fn r0, cmdpos := here env fn rc, modifiers := ms, range := rg } s]) rc := by
  split
  · exact .nil (h.adv.suffix.trans h.2.1.adv.suffix)
  · refine SL.part (r1 := rc) ?_ (fun _ _ h => nomatch h) (.nil (List.suffix_refl _)) rfl
    exact .cons h.2.1.adv.suffix (by simp) (.cons h.adv.suffix (by simp) (.cons (List.suffix_refl _) (by simp) (.refl _)))

mutual

theorem body_order {cx used r ss used' r'} : Body nv env fn cx used r ss used' r' → SL env fn r ss r'
  | .nil => .nil (List.suffix_refl _)
  | .shebang h _ h1 _ => (body_order h).right ((List.suffix_cons _ _).trans h1.suf)
  | .empty h h1 _ => (body_order h).right ((List.suffix_cons _ _).trans h1.adv.suffix)
  | .comment h h1 h2 => (body_order h).append ((comment_order h2).left h1.adv.suffix)
  | .noCommand h h1 _ _ h2 => ((body_order h).append (noCommand_order h1)).append (trail_order h2)
  | .simple h h1 h2 h3 => ((body_order h).append (simple_order h1 h2)).append (trail_order h3)
  | .block h h1 h2 => ((body_order h).append (block_order h1)).append (trail_order h2)

theorem block_order {cx used r s used' r'} : Block nv env fn cx used r s used' r' → SL env fn r [s] r'
  | .function h1 h2 h3 => by
    obtain ⟨rx, t1, t2, t3⟩ := opens_order funcHead_track h1
    refine SL.block (r1 := rx) ?_ t2 (t3.append (body_order h2)) rfl (closes_track h3)
    simpa [headPlaces] using t1
  | .while_ h1 h2 h3 => by
    obtain ⟨rx, t1, t2, t3⟩ := opens_order gramArg h1
    refine SL.block (r1 := rx) ?_ t2 (t3.append (body_order h2)) rfl (closes_track h3)
    simpa [headPlaces, exArgOf, stmtPos, exprsOf] using t1
  | .for_ h1 h2 h3 => by
    obtain ⟨rx, t1, t2, t3⟩ := opens_order forArg h1
    refine SL.block (r1 := rx) ?_ t2 (t3.append (body_order h2)) rfl (closes_track h3)
    simpa [headPlaces, exArgOf, stmtPos, exprsOf] using t1
  | .if_ h1 h2 => by
    obtain ⟨rx, t1, t2, t3⟩ := ifPart_order h1
    refine SL.block (r1 := rx) ?_ t2 ?_ rfl (closes_track h2)
    · simpa [headPlaces, exArgOf, stmtPos, exprsOf] using t1
    · simpa [subStmts] using t3
  | .ifElse h1 h2 h3 h4 => by
    obtain ⟨rx, t1, t2, t3⟩ := ifPart_order h1
    obtain ⟨ry, u1, u2, u3⟩ := opens_order noArg h2
    refine SL.block (r1 := rx) ?_ t2 (t3.append (SL.part (r1 := ry) ?_ u2 (u3.append (body_order h3)) rfl)) rfl (closes_track h4)
    · simpa [headPlaces, exArgOf, stmtPos, exprsOf] using t1
    · simpa [headPlaces, exArgOf, stmtPos, exprsOf, placesL] using u1
  | .try_ h1 h2 => by
    obtain ⟨rx, t1, t3⟩ := tryPart_order h1
    refine SL.block (r1 := rx) ?_ (fun _ _ h => nomatch h) ?_ rfl (closes_track h2)
    · simpa [headPlaces, exArgOf, stmtPos, exprsOf, placesL] using t1
    · simpa [subStmts] using t3
  | .tryFinally h1 h2 h3 h4 => by
    obtain ⟨rx, t1, t3⟩ := tryPart_order h1
    obtain ⟨ry, u1, u2, u3⟩ := opens_order noArg h2
    refine SL.block (r1 := rx) ?_ (fun _ _ h => nomatch h) (t3.append (SL.part (r1 := ry) ?_ u2 (u3.append (body_order h3)) rfl)) rfl
      (closes_track h4)
    · simpa [headPlaces, exArgOf, stmtPos, exprsOf, placesL] using t1
    · simpa [headPlaces, exArgOf, stmtPos, exprsOf, placesL] using u1

theorem ifPart_order {cx used r ea ss x eis used' r'} : IfPart nv env fn cx used r ea ss x eis used' r' →
    ∃ rx, Track env fn false r (cmdPlaces ea.cmdpos ea ++ placesL true [x]) rx ∧ (r <:+ env.buf → Strict env fn [x]) ∧
      SL env fn rx (ss ++ eis) r'
  | .if_ h1 h2 => by
    obtain ⟨rx, t1, t2, t3⟩ := opens_order gramArg h1
    exact ⟨rx, t1, t2, by simpa using t3.append (body_order h2)⟩
  | .elseif h1 h2 h3 => by
    obtain ⟨rx, t1, t2, t3⟩ := ifPart_order h1
    obtain ⟨ry, u1, u2, u3⟩ := opens_order gramArg h2
    refine ⟨rx, t1, t2, ?_⟩
    rw [← List.append_assoc]
    refine t3.append (SL.part (r1 := ry) ?_ u2 (u3.append (body_order h3)) rfl)
    simpa [headPlaces, exArgOf, stmtPos, exprsOf] using u1

theorem tryPart_order {cx used r ea ss cs used' r'} : TryPart nv env fn cx used r ea ss cs used' r' →
    ∃ rx, Track env fn false r (cmdPlaces ea.cmdpos ea) rx ∧ SL env fn rx (ss ++ cs) r'
  | .try_ h1 h2 => by
    obtain ⟨rx, t1, t2, t3⟩ := opens_order noArg h1
    exact ⟨rx, by simpa using t1, by simpa using t3.append (body_order h2)⟩
  | .catch_ h1 h2 h3 => by
    obtain ⟨rx, t1, t3⟩ := tryPart_order h1
    obtain ⟨ry, u1, u2, u3⟩ := opens_order catchArg h2
    refine ⟨rx, t1, ?_⟩
    rw [← List.append_assoc]
    refine t3.append (SL.part (r1 := ry) ?_ u2 (u3.append (body_order h3)) rfl)
    simpa [headPlaces, exArgOf, stmtPos, exprsOf, placesL] using u1

end

end

end Viml
