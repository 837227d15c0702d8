/-
Commands whose name is a word, without modifiers, range and bang.
-/
import Verif.Spec.Holder
import Verif.Lemmas.PhraseIn
import Verif.Lemmas.RunIff
import Verif.Lemmas.FileRange

namespace Viml
open Spec

variable {nv : Bool} {env : Env} {fn : Str} {used : List Str} {n l : Str} {c : Cmd} {r r1 ra r' : List Cell}

theorem wordCmd_table : ∀ c ∈ neovimAdditionalCommands ++ builtinCommands, c.name ∈ wordCmds →
    2 ≤ c.minlen ∧ .ARGOPT ∉ c.flags ∧ .EDITCMD ∉ c.flags := by
  decide +kernel

theorem wordCmd_names : ∀ x ∈ wordCmds, ∀ k ∈ List.range 12, 2 ≤ k →
    (x.take k).head? ∉ [some 'k', some 'p', some 'd', some 's', none] ∧ (∀ c ∈ x.take k, isalpha c = true ∧ isupper c = false) ∧
    ∀ p ∈ vimModifiers, ¬ (x.take k <+: p.1 ∧ p.2 ≤ k) := by
  decide +kernel

theorem Spec.TableCmd.mem (h : TableCmd nv n c) : c ∈ neovimAdditionalCommands ++ builtinCommands ∧ Abbrev n c := by
  have key : ∀ {T : List Cmd}, FirstOf T n c → c ∈ T ∧ Abbrev n c := by
    rintro T ⟨a, b, rfl, h, _⟩
    exact ⟨by simp, h⟩
  unfold TableCmd at h
  split at h
  · rcases h.2 with h | h
    · exact ⟨List.mem_append.2 (.inl (key h).1), (key h).2⟩
    · exact ⟨List.mem_append.2 (.inr (key h.2).1), (key h.2).2⟩
  · exact ⟨List.mem_append.2 (.inr (key h).1), (key h).2⟩

/-- What is known about the names of these commands. -/
structure WordName (n : Str) : Prop where
  head : n.head? ∉ [some 'k', some 'p', some 'd', some 's', none]
  alpha : ∀ c ∈ n, isalpha c = true ∧ isupper c = false
  mods : ∀ p ∈ vimModifiers, ¬ (n <+: p.1 ∧ p.2 ≤ n.length)

theorem wordName (h : TableCmd nv n c) (hc : c.name ∈ wordCmds) : WordName n := by
  obtain ⟨h1, h2, h3⟩ := h.mem
  have h4 := (wordCmd_table c h1 hc).1
  have hlen : ∀ x ∈ wordCmds, x.length < 12 := by decide
  have e : n = c.name.take n.length := by
    obtain ⟨s, hs⟩ := h2
    rw [← hs]; simp
  have hl : n.length ≤ c.name.length := h2.length_le
  obtain ⟨k1, k2, k3⟩ := wordCmd_names c.name hc n.length (by simp; have := hlen _ hc; omega) (by omega)
  rw [← e] at k1 k2 k3
  exact ⟨k1, k2, k3⟩

theorem WordName.cons (h : WordName n) : ∃ x s, n = x :: s ∧ x ∉ cs!"kpds" := by
  have := h.head
  cases n with
  | nil => simp at this
  | cons x s =>
    refine ⟨x, s, rfl, ?_⟩
    simpa using this

theorem alpha_not {x : Char} (h : isalpha x = true) : iswhite x = false ∧ isdigit x = false ∧ x ≠ ':' ∧ x ≠ '"' ∧ x ≠ '#' ∧
    x ∉ cs!".$'/?\\+-%*;," := by
  have key : ∀ y ∈ cs!" \t:\"#.$'/?\\+-%*;,", isalpha y = false := by decide
  have key : ∀ y ∈ cs!" \t:\"#.$'/?\\+-%*;,", x ≠ y := by
    rintro y hy rfl
    rw [key x hy] at h
    cases h
  refine ⟨?_, ?_, key _ (by decide), key _ (by decide), key _ (by decide), fun hm => ?_⟩
  · have h1 := key ' ' (by decide)
    have h2 := key '\t' (by decide)
    simp [iswhite, h1, h2]
  · cases hd : isdigit x with
    | false => rfl
    | true =>
      simp only [isdigit, isalpha, isUpperC, isLowerC, Bool.and_eq_true, Bool.or_eq_true, decide_eq_true_eq] at hd h
      omega
  · have : ∀ y ∈ cs!".$'/?\\+-%*;,", y ∈ cs!" \t:\"#.$'/?\\+-%*;," := by decide
    exact key x (this x hm) rfl

theorem word_head (hc : c.name ∈ wordCmds) (ht : TableCmd nv n c) (hl : LineIs r (n ++ l)) (hr : Reads r n r1)
    (hs : Skip r1 ra) (hb : l = [] ∨ ∃ l', l = ' ' :: l') :
    CmdHead nv env fn used r r (record c (here env fn r) (here env fn ra)) c ra ra used := by
  have hn := wordName ht hc
  obtain ⟨x, s, e, hx⟩ := hn.cons
  have ha := alpha_not (hn.alpha x (by rw [e]; simp)).1
  have hh : headSym r = .ch x := by
    rw [e] at hr
    obtain ⟨q, r2, rfl, _⟩ := hr.cons_inv
    rfl
  have hh1 : AtEnd r1 ∨ headSym r1 = .ch ' ' := by
    obtain ⟨e, he, he'⟩ := hl
    obtain ⟨m, h1, h2⟩ := he.split
    rw [show r1 = m from hr.drop.symm.trans h1.drop]
    rcases hb with rfl | ⟨l', rfl⟩
    · cases h2.nil_inv
      exact .inl he'
    · obtain ⟨_, _, rfl, _⟩ := h2.cons_inv
      exact .inr rfl
  have hsp : Span isalpha r n r1 := ⟨hr, fun c hc => (hn.alpha c hc).1, by rcases hh1 with (e | e) | e <;> rw [e] <;> rfl⟩
  have np : ∀ y ∈ cs!".$'/?\\+-%*;,", headSym r ≠ .ch y := by
    intro y hy e
    rw [hh] at e
    cases e
    exact ha.2.2.2.2.2 hy
  have ne : ¬ AtEnd r := by simp [AtEnd, hh]
  have spc : SkipC r r := ⟨[], Reads.nil _, by simp, by rw [hh]; simp [Sym.is, ha]⟩
  have sp : Skip r r := ⟨[], Reads.nil _, by simp, by rw [hh]; simp [Sym.is, ha]⟩
  refine ⟨[], [], r, r1, false, r1, ⟨?_, spc, ne, by simp [hh, ha], r, r, ?_, by simp [CountsOK], ?_, spc⟩, ne, by simp [hh, ha], ?_, ?_, ?_, ?_⟩
  · rintro ⟨r', h⟩
    obtain ⟨q, r2, rfl, _⟩ := h.cons_inv
    cases hh
    exact ha.2.2.2.2.1 rfl
  · refine .nil ?_
    intro m r' h
    cases h with
    | mk h1 h2 h3 h4 h5 h6 h7 h8 h9 h10 =>
      rename_i d _ _ _ _ _ _ _ _ _ _ _ _ _ _ _ _ _
      have hd : d = [] := by
        cases d with
        | nil => rfl
        | cons y d =>
          obtain ⟨q, _, rfl, _⟩ := h1.cons_inv
          cases hh
          rw [h2 _ (by simp)] at ha
          cases ha.2.1
      subst hd
      rw [h4 rfl] at h1
      cases h1.nil_inv
      have e2 := span_iff.1 hsp
      rw [span_iff.1 ⟨h5, h6, h7⟩] at e2
      injection e2 with e2
      subst e2
      exact hn.mods _ h8 ⟨h9, h10⟩
  · have a : Addresses r ([] ++ []) r := by
      refine .one sp ne (.none ?_) (.nil sp ?_) (np _ (by decide)) (np _ (by decide))
      · rw [hh]
        simp only [Sym.is, ha.2.1, Bool.or_false]
        have := ha.2.2.2.2.2
        simp only [List.mem_cons, List.not_mem_nil, or_false, not_or] at this
        simp [this]
      · rw [hh]
        have := ha.2.2.2.2.2
        simp only [List.mem_cons, List.not_mem_nil, or_false, not_or] at this
        simp [Sym.is, ha.2.1, this]
    exact .last a (.no (np _ (by decide)) (np _ (by decide))) (np _ (by decide)) (np _ (by decide))
  · simp only [List.mem_cons, List.not_mem_nil, or_false, not_or] at hx
    refine .table hl (.word (by rw [e]; simp) (fun c hc => (hn.alpha c hc).1) ?_ ?_ ?_ ?_ ?_) ht ?_ hr
    · intro c hc
      rcases hb with rfl | ⟨l', rfl⟩
      · cases hc
      · cases hc
        decide
    · rw [e]
      rintro ⟨t, h⟩
      injection h with h
      exact hx.1 h.symm
    · rw [e]
      rintro ⟨y, _, t, h⟩
      injection h with h
      exact hx.2.2.2 h.symm
    · rw [e]
      rintro ⟨t, h⟩
      injection h with h
      exact hx.2.1 h.symm
    · rintro ⟨_, t, y, h, hm, _⟩
      have : ∀ t ∈ deleteAbbrevs, t.head? = some 'd' := by decide
      have := this t hm
      rw [e] at h
      cases t with
      | nil => cases this
      | cons z t =>
        injection h with h
        rw [h] at hx
        cases this
        exact hx.2.2.1 rfl
    · rintro ⟨⟨y, t, h, h1, h2⟩, _⟩
      have hu := (hn.alpha y (by rw [h]; simp)).2
      have h1 : 65 ≤ y.toNat := h1
      have h2 : y.toNat ≤ 90 := h2
      simp only [isupper, isUpperC, Bool.and_eq_false_iff, decide_eq_false_iff_not] at hu
      omega
  · exact .no (.inl (by rcases hh1 with (e | e) | e <;> simp [e]))
  · refine .inr ⟨?_, hs⟩
    have nm : ∀ x ∈ wordCmds, x ≠ cs!"!" := by decide
    exact nm _ hc
  · obtain ⟨h1, h2, h3⟩ := wordCmd_table c ht.mem.1 hc
    have nm : ∀ x ∈ wordCmds, x ∉ [cs!"write", cs!"update", cs!"read", cs!"<", cs!">"] := by decide
    have := nm _ hc
    simp only [List.mem_cons, List.not_mem_nil, or_false, not_or] at this
    refine ⟨_, _, _, _, _, _, _, _, .inr ⟨h2, rfl, rfl⟩, .none (by simp [this]) (by simp [this]), .none (by simp [this]),
      .none this.2.2.2.1 this.2.2.2.2, .inr ⟨by simp [h3], rfl, rfl⟩⟩

/-! Commands in the only line of a file -/

theorem here_cut (env : Env) (fn u v : Str) : here env fn (lineAt u v) = posAt fn (bytes u) := pub_cut env fn u v

theorem skip_cut {u v : Str} (h : ∀ c, v.head? = some c → iswhite c = false) : Skip (lineAt u v) (lineAt u v) := by
  refine skip_self ?_
  cases v with
  | nil => rfl
  | cons c v => exact h c rfl

theorem lineIs_at (u v : Str) : LineIs (lineAt u v) v := by
  have := cut_reads v u []
  rw [List.append_nil] at this
  exact ⟨_, this, .inl rfl⟩

/-- The head of a command with arguments. -/
theorem line_head (env : Env) (fn : Str) (used : List Str) (hc : c.name ∈ wordCmds) (ht : TableCmd nv n c)
    (hw : ∀ c, l.head? = some c → iswhite c = false) :
    CmdHead nv env fn used (lineAt [] (n ++ ' ' :: l)) (lineAt [] (n ++ ' ' :: l)) (record c (posAt fn 0) (posAt fn (bytes n + 1))) c
      (lineAt (n ++ [' ']) l) (lineAt (n ++ [' ']) l) used := by
  have h1 := cut_reads n [] (' ' :: l)
  have h2 := cut_reads [' '] n l
  have h := word_head (env := env) (fn := fn) (used := used) hc ht (lineIs_at [] (n ++ ' ' :: l)) h1
    (ra := lineAt (n ++ [' ']) l) ?_ (.inr ⟨l, rfl⟩)
  · rw [here_cut, here_cut] at h
    rw [show bytes (n ++ [' ']) = bytes n + 1 by count] at h
    exact h
  · refine ⟨[' '], h2, by decide, ?_⟩
    cases l with
    | nil => rfl
    | cons c v => exact hw c rfl

theorem trail_last {u w : Str} (h : Reads r w (lineAt u [])) (hw : ∀ c ∈ w, iswhite c = true) : Trail env fn r [] [] :=
  .eol ⟨w, h, hw, rfl⟩ rfl

/-! An expression does not start with a bar -/

/-- The first character that is no blank is a bar. -/
def Bar (r : List Cell) : Prop := ∃ w r1, Reads r w r1 ∧ (∀ c ∈ w, iswhite c = true) ∧ headSym r1 = .ch '|'

theorem Bar.first (h : Bar r) {x : Char} {v : Str} {r2 : List Cell} (hb : Blanks r r1) (h1 : Reads r1 (x :: v) r2)
    (hx : iswhite x = false) : x = '|' := by
  obtain ⟨w, r3, h2, h3, h4⟩ := h
  obtain ⟨w', h5, h6⟩ := hb
  have e1 := (span_iff (f := iswhite)).1 ⟨h2, h3, by rw [h4]; decide⟩
  obtain ⟨q, r4, rfl, _⟩ := h1.cons_inv
  rw [(span_iff (f := iswhite)).1 ⟨h5, h6, hx⟩] at e1
  injection e1 with _ e1
  rw [← e1] at h4
  injection h4

theorem bar_of {f : Char → Bool} {x : Char} (hf : f '|' = false) (hx : f x = true) : x ≠ '|' := by
  rintro rfl
  rw [hf] at hx
  cases hx

theorem lexeme_first {ty : TT} {v : Str} (h : Lexeme ty v r) :
    ∃ x s, v = x :: s ∧ iswhite x = false ∧ (x = '|' → ty = .or_ ∨ ty = .oror) := by
  cases h
  case dec h1 _ _ _ =>
    cases v with
    | nil => exact absurd rfl h1.1
    | cons c v =>
      exact ⟨c, v, rfl, white_of (f := isdigit) (by decide) (h1.2 c (by simp)),
        fun e => absurd e (bar_of (f := isdigit) (by decide) (h1.2 c (by simp)))⟩
  case float d f h1 _ _ _ =>
    cases d with
    | nil => exact absurd rfl h1.1
    | cons c v =>
      exact ⟨c, _, rfl, white_of (f := isdigit) (by decide) (h1.2 c (by simp)),
        fun e => absurd e (bar_of (f := isdigit) (by decide) (h1.2 c (by simp)))⟩
  case exp d f e h1 _ _ _ =>
    cases d with
    | nil => exact absurd rfl h1.1
    | cons c v =>
      exact ⟨c, _, rfl, white_of (f := isdigit) (by decide) (h1.2 c (by simp)),
        fun e => absurd e (bar_of (f := isdigit) (by decide) (h1.2 c (by simp)))⟩
  case ident c s h1 _ _ _ =>
    exact ⟨c, s, rfl, white_of (f := iswordc1) (by decide) h1, fun e => absurd e (bar_of (f := iswordc1) (by decide) h1)⟩
  case cmp k _ _ _ _ => cases k <;> exact ⟨_, _, rfl, by decide, fun e => absurd e (by decide)⟩
  case cmpCase k m _ => cases k <;> exact ⟨_, _, rfl, by decide, fun e => absurd e (by decide)⟩
  case or_ => exact ⟨_, _, rfl, by decide, fun _ => .inl rfl⟩
  case oror => exact ⟨_, _, rfl, by decide, fun _ => .inr rfl⟩
  all_goals exact ⟨_, _, rfl, by decide, fun e => absurd e (by decide)⟩

theorem Bar.lex (h : Bar r) {t : Token} (hl : Lex env r t r') (h1 : t.ty ≠ .eol := by simp) (h2 : t.ty ≠ .eof := by simp)
    (h3 : t.ty ≠ .or_ := by simp) (h4 : t.ty ≠ .oror := by simp) : False := by
  cases hl with
  | eof => exact h2 rfl
  | eol => exact h1 rfl
  | text w r r1 ty v r' a1 a2 a3 a4 =>
    obtain ⟨x, s, rfl, a5, a6⟩ := lexeme_first a4
    rcases a6 (h.first ⟨w, a1, a2⟩ a3 a5) with e | e
    · exact h3 e
    · exact h4 e

theorem Bar.mark (h : Bar r) {ty : TT} {q : Ast.Pos} (hm : Mark env fn r ty q r') (h1 : ty ≠ .eol := by simp)
    (h2 : ty ≠ .eof := by simp) (h3 : ty ≠ .or_ := by simp) (h4 : ty ≠ .oror := by simp) : False := by
  obtain ⟨t, hl, rfl, _⟩ := hm
  exact h.lex hl h1 h2 h3 h4

theorem Spec.IsUn.ne_or {ty op} (h : IsUn ty op) : ty ≠ .or_ ∧ ty ≠ .oror := by cases h <;> simp
theorem Spec.IsLit.ne_or {ty k} (h : IsLit ty k) : ty ≠ .or_ ∧ ty ≠ .oror := by cases h <;> simp

theorem Bar.sid (b : Bar r) {r2 : List Cell} {v : Str} (h : Blanks r r1) (h1 : Reads r1 v r2)
    (h2 : equalci v ['<', 'S', 'I', 'D', '>'] = true) : False := by
  cases v with
  | nil => cases h2
  | cons c v =>
    have : c = '<' := by
      simp only [equalci, List.map_cons, beq_iff_eq, List.cons.injEq] at h2
      exact lowerC_lt h2.1
    subst this
    exact absurd (b.first h h1 (by decide)) (by decide)

mutual
theorem gram_bar : ∀ {k r e r'}, Gram env fn k r e r' → Bar r → False
  | _, _, _, _, .ternary h1 _ _ _ _, b => gram_bar h1 b
  | _, _, _, _, .noTernary h _, b => gram_bar h b
  | _, _, _, _, .chain _ _ h _, b => chain_bar h b
  | _, _, _, _, .compare h1 _ _ _, b => gram_bar h1 b
  | _, _, _, _, .noCompare h _, b => gram_bar h b
  | _, _, _, _, .unary h1 h2 _, b => b.lex h1 h2.ne_eol.1 h2.ne_eol.2 h2.ne_or.1 h2.ne_or.2
  | _, _, _, _, .noUnary h, b => gram_bar h b
  | _, _, _, _, .postfix h _, b => chain_bar h b
  | _, _, _, _, .lit h1 h2, b => b.lex h1 h2.ne_eol.1 h2.ne_eol.2 h2.ne_or.1 h2.ne_or.2
  | _, _, _, _, .dstring h1 _ h2, b => absurd (b.first h1 h2 (by decide)) (by decide)
  | _, _, _, _, .sstring h1 _ h2 _, b => absurd (b.first h1 h2 (by decide)) (by decide)
  | _, _, _, _, .list h1 _, b => b.mark h1
  | _, _, _, _, .paren h1 _ _, b => b.mark h1
  | _, _, _, _, .dict h1 _ _, b => b.mark h1
  | _, _, _, _, .litdict h1 _ _, b => b.mark h1
  | _, _, _, _, .lambda h1 _ _ _, b => h1.elim (fun h => b.mark h) (fun h => b.mark h)
  | _, _, _, _, .name _ ⟨t, r1, h, h1⟩ _ _, b => by
    refine b.lex h ?_ ?_ ?_ ?_ <;> rcases h1 with h1 | ⟨k, m, h1, _⟩ | ⟨h1, _⟩ | ⟨h1, _⟩ <;> rw [h1] <;> simp
  | _, _, _, _, .sid h1 h2 h3 _, b => by
    exact b.sid h1 h2 h3
theorem chain_bar : ∀ {k r e r'}, Chain env fn k r e r' → Bar r → False
  | _, _, _, _, .one _ h, b => gram_bar h b
  | _, _, _, _, .op _ h1 _ _ _, b => chain_bar h1 b
  | _, _, _, _, .subscript h1 _ _ _ _, b => chain_bar h1 b
  | _, _, _, _, .slice h1 _ _ _ _ _ _, b => chain_bar h1 b
  | _, _, _, _, .method h1 _ _ _ _ _, b => chain_bar h1 b
  | _, _, _, _, .call h1 _ _ _, b => chain_bar h1 b
  | _, _, _, _, .dot h1 _ _ _ _, b => chain_bar h1 b
end

/-- There is an expression, so the line does not end and no bar follows. -/
theorem gram_not_end {k : Nat} {e : Ast.Expr} (h : Gram env fn k r e r') : ¬ (AtEnd r ∨ headSym r = .ch '|') := by
  rintro ((h1 | h1) | h1)
  · obtain ⟨v, r2, h2, c, hc, _⟩ := gram_solid h
    cases v with
    | nil => cases hc
    | cons x v =>
      obtain ⟨_, _, rfl, _⟩ := h2.cons_inv
      cases h1
  · obtain ⟨v, r2, h2, c, hc, _⟩ := gram_solid h
    cases v with
    | nil => cases hc
    | cons x v =>
      obtain ⟨_, _, rfl, _⟩ := h2.cons_inv
      cases h1
  · exact gram_bar h ⟨[], r, Reads.nil _, by simp, h1⟩

/-! Variables -/

theorem varName_chars {v : Str} (h : VarName v) : ∃ c s, v = c :: s ∧ iswordc1 c = true ∧ ∀ x ∈ s, isnamec x = true := by
  have scope : ∀ s ∈ cs!"vgslabwt", iswordc1 s = true := by decide
  have var : ∀ x, varChar x = true → isnamec x = true := by
    intro x hx
    simp only [varChar, Bool.or_eq_true, beq_iff_eq] at hx
    simp only [isnamec, iswordc, Bool.or_eq_true, beq_iff_eq]
    rcases hx with (hx | hx) | hx <;> simp [hx]
  have first : ∀ c, isalpha c = true ∨ c = '_' → iswordc1 c = true := by
    intro c hc
    simpa [iswordc1] using hc
  rcases h with ⟨s, rfl, hs⟩ | ⟨pre, c, t, rfl, rfl | ⟨s, rfl, hs⟩, h1, h2⟩
  · exact ⟨s, _, rfl, scope s hs, by intro x hx; cases List.mem_singleton.1 hx; decide⟩
  · exact ⟨c, t, rfl, first c h1, fun x hx => var x (h2 x hx)⟩
  · refine ⟨s, _, rfl, scope s hs, ?_⟩
    intro x hx
    rcases (show x = ':' ∨ x = c ∨ x ∈ t by simpa using hx) with rfl | rfl | hx
    · decide
    · have := first x h1
      simp only [iswordc1, Bool.or_eq_true] at this
      simp only [isnamec, iswordc, isalnum, Bool.or_eq_true]
      rcases this with this | this <;> simp [this]
    · exact var x (h2 x hx)

/-- A variable as a target of an assignment. -/
theorem var_target {v : Str} (hv : VarName v) (hw : ¬ isWord v) (hr : Reads r v r1) (h1 : headSym r1 = .ch ' ')
    (hl : ∃ t r2, Lex env r1 t r2) : Target env fn r (.ident ⟨here env fn r, v⟩) r1 ∧ Next env r (· ≠ .sqopen) ∧
      ¬ AtStop r ∧ Skip r r := by
  obtain ⟨c, s, rfl, h2, h3⟩ := varName_chars hv
  have hc : isnamec c = true := by
    simp only [iswordc1, Bool.or_eq_true] at h2
    simp only [isnamec, iswordc, isalnum, Bool.or_eq_true]
    rcases h2 with h2 | h2 <;> simp [h2]
  have hh : headSym r = .ch c := by
    obtain ⟨_, _, rfl, _⟩ := hr.cons_inv
    rfl
  have lx : Lex env r ⟨.identifier, c :: s, posOf env r⟩ r1 :=
    .text [] r r .identifier (c :: s) r1 (Reads.nil _) (by simp) hr (.ident c s _ h2 h3 (by rw [h1]; decide) hw)
  have parts : NameParts env fn r [.curlyNameLit (pubPos fn (posOf env r)) (c :: s)] r1 := by
    refine .text hr ⟨by simp, ?_⟩ (by rw [h1]; decide) (.nil (by rw [h1]; decide) (by simp [h1]))
    intro x hx
    rcases List.mem_cons.1 hx with rfl | hx
    · exact hc
    · exact h3 x hx
  obtain ⟨t, r2, hl⟩ := hl
  refine ⟨⟨⟨.start (.name ⟨[], Reads.nil _, by simp⟩ ⟨_, _, lx, .inl rfl⟩ parts (by simp)), t, r2, hl, ?_⟩, hv⟩,
    ⟨_, _, lx, by simp⟩, ?_, ?_⟩
  · intro e
    rw [h1] at e
    cases e
  · have key : ∀ y ∈ cs!"|\"", iswordc1 y = false := by decide
    rintro ((e | e) | e | e) <;> rw [hh] at e <;> cases e
    · rw [key _ (by decide)] at h2; cases h2
    · rw [key _ (by decide)] at h2; cases h2
  · refine skip_self ?_
    rw [hh]
    exact white_of (f := iswordc1) (by decide) h2

theorem letOp_lex {op : Str} (ho : op ∈ letOps) {u b : Str} : ∃ t r2, Lex env (lineAt u (' ' :: (op ++ ' ' :: b))) t r2 := by
  have w : ∀ c ∈ [' '], iswhite c = true := by decide
  simp only [letOps, List.mem_cons, List.not_mem_nil, or_false] at ho
  rcases ho with rfl | rfl | rfl | rfl | rfl | rfl | rfl | rfl
  all_goals first
    | exact ⟨_, _, mark_cut w (v := ['+']) (.plus _)⟩
    | exact ⟨_, _, mark_cut w (v := ['*']) (.star _)⟩
    | exact ⟨_, _, mark_cut w (v := ['/']) (.slash _)⟩
    | exact ⟨_, _, mark_cut w (v := ['%']) (.percent _)⟩
    | exact ⟨_, _, mark_cut w (v := ['-']) (.minus _ (by simp [lineAt, headSym, Cell.sym]))⟩
    | exact ⟨_, _, mark_cut w (v := ['=']) (.eq _ (by simp [lineAt, headSym, Cell.sym]) (by simp [lineAt, headSym, Cell.sym]))⟩
    | exact ⟨_, _, mark_cut w (v := ['.', '.']) (.dotdot _ (by simp [lineAt, headSym, Cell.sym]))⟩
    | exact ⟨_, _, mark_cut w (v := ['.']) (.dot _ (by simp [lineAt, headSym, Cell.sym]))⟩

theorem letOp_start {op : Str} (ho : op ∈ letOps) (u b : Str) : (headSym (lineAt u (op ++ ' ' :: b))).is iswhite = false ∧
    ¬ StartsWith (lineAt u (op ++ ' ' :: b)) cs!"=<<" := by
  simp only [letOps, List.mem_cons, List.not_mem_nil, or_false] at ho
  rcases ho with rfl | rfl | rfl | rfl | rfl | rfl | rfl | rfl
  all_goals
    refine ⟨rfl, ?_⟩
    rintro ⟨r', h⟩
    obtain ⟨l', h, _⟩ := reads_cut h
    simp at h

end Viml
