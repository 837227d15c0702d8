/-
Runs of the expression parser on literals and names.
-/
import Verif.Lemmas.ExprRun
import Verif.Lemmas.Utf8
import Verif.Spec.Printer

namespace Viml
open Prog Spec

section
variable {env : Env}

local notation "run(" m "," r ")" => Prog.runWith tokGet env m r

/-- What follows a literal or a name in printed text. -/
def Safe (r : List Cell) : Prop := ∀ c, headSym r = .ch c → c = ' ' ∨ c = '[' ∨ c = ')' ∨ c = ']'

theorem Safe.is {r : List Cell} (h : Safe r) {f : Char → Bool} (h1 : f ' ' = false := by decide)
    (h2 : f '[' = false := by decide) (h3 : f ')' = false := by decide) (h4 : f ']' = false := by decide) :
    (headSym r).is f = false := by
  cases hh : headSym r with
  | ch c => rcases h c hh with rfl | rfl | rfl | rfl <;> assumption
  | eol => rfl
  | eof => rfl

theorem Safe.ne {r : List Cell} (h : Safe r) {c : Char} (h1 : c ≠ ' ' := by decide) (h2 : c ≠ '[' := by decide)
    (h3 : c ≠ ')' := by decide) (h4 : c ≠ ']' := by decide) : headSym r ≠ .ch c := by
  intro hc
  rcases h c hc with rfl | rfl | rfl | rfl <;> contradiction

theorem tok_of (he : EnvOK env) {r r1 r' : List Cell} (hs : Suf env r) {w v : Str} {ty : TT}
    (h1 : Reads r w r1) (hw : ∀ c ∈ w, iswhite c = true) (h2 : Reads r1 v r') (hl : Lexeme ty v r') :
    tokGet env r = .ok ⟨ty, v, posOf env r1⟩ r' :=
  (tokGet_iff he hs _ _).2 (.text w r r1 ty v r' h1 hw h2 hl)

theorem getnS2_safe {r : List Cell} (h : Safe r) : (getnS 2 r).1 = [] ∨
    ∃ c t, (getnS 2 r).1 = c :: t ∧ isxdigit c = false ∧ c ≠ '.' := by
  match r, h with
  | [], _ => exact .inl rfl
  | ⟨none, q⟩ :: t, _ => exact .inl rfl
  | ⟨some c, q⟩ :: t, h =>
    refine .inr ⟨c, _, rfl, ?_, ?_⟩
    · exact h.is (f := isxdigit)
    · rintro rfl
      exact absurd rfl (h.ne (c := '.'))

theorem blobStop_safe {r : List Cell} (h : Safe r) : BlobRun [] r := by
  rcases getnS2_safe h with h1 | ⟨c, t, h1, h2, h3⟩
  · exact .stop r (by rw [h1]; rfl) (by rw [h1]; rfl) (by rw [h1]; rfl)
  · refine .stop r ?_ ?_ ?_ <;> rw [h1] <;> match t with
    | [] => rfl
    | [d] => simp [isHexPair, isDotHex, isHexNonHex, h2, h3]
    | _ :: _ :: _ => rfl

theorem bytes_run {s : Str} (h : Bytes s) {r : List Cell} (hr : Safe r) : BlobRun s r := by
  induction h with
  | nil => exact blobStop_safe hr
  | pair a b s ha hb _ ih => exact .pair a b s r ha hb ih
  | dot a b s ha hb _ ih => exact .dot _ r (by simpa [nextSym, Sym.is] using ha) (.pair a b s r ha hb ih)

theorem number_lexeme {v : Str} (h : Number v) {r : List Cell} (hr : Safe r) : Lexeme .number v r := by
  have hx : (headSym r).is isxdigit = false := hr.is
  have hd : (headSym r).is isdigit = false := hr.is
  cases h with
  | hex x d h1 h2 => exact .hex x d r h1 h2 hx
  | bin x d h1 h2 => exact .bin x d r h1 h2 hr.is
  | dec _ h1 =>
    refine .dec _ r h1 hd (fun h => absurd h.1 hr.ne) fun _ h => ?_
    rcases h with ⟨h | h, _⟩ | ⟨h | h, _⟩ | ⟨h | h, _⟩ <;> exact absurd h hr.ne
  | float d f h1 h2 => exact .float d f r h1 h2 hd fun h => by rcases h.1 with h | h <;> exact absurd h hr.ne
  | exp d f e h1 h2 h3 => exact .exp d f e r h1 h2 h3 hd

/-- Complete literals other than strings are read as one token. -/
theorem literal_lexeme {k : Tok} {v : Str} (h : Literal k v) (hk : k ≠ .STRING) {r : List Cell} (hr : Safe r) :
    ∃ ty a, Lexeme ty v r ∧ atomTok ty = some a ∧ ∀ q, Export.atom q v a = .basicLit q k v := by
  cases k <;> try exact h.elim
  case NUMBER => exact ⟨_, .number, number_lexeme h hr, rfl, fun _ => rfl⟩
  case BLOB =>
    obtain ⟨z, s, hz, rfl, hb, hn⟩ := h
    refine ⟨_, .blob, .blob z s r hz ?_ (bytes_run hb hr), rfl, fun _ => rfl⟩
    cases s with
    | nil => exact hr.ne
    | cons c s =>
      intro h
      cases h
      exact hn rfl
  case OPTION =>
    obtain ⟨pre, s, hp, hw, rfl⟩ := h
    have hd : (headSym r).is iswordc = false := hr.is
    rcases hp with rfl | rfl | rfl
    · exact ⟨_, .option, .option s r hw hd (fun _ => hr.ne) fun _ => hr.ne, rfl, fun _ => rfl⟩
    · exact ⟨_, .option, .optScope 'g' s r (.inl rfl) hw hd, rfl, fun _ => rfl⟩
    · exact ⟨_, .option, .optScope 'l' s r (.inr rfl) hw hd, rfl, fun _ => rfl⟩
  case ENV =>
    obtain ⟨s, rfl, hw⟩ := h
    exact ⟨_, .env, .env s r hw hr.is, rfl, fun _ => rfl⟩
  case REG =>
    obtain ⟨c, rfl⟩ := h
    exact ⟨_, .reg, .reg c r, rfl, fun _ => rfl⟩
  case STRING => exact absurd rfl hk

theorem expr9_atom {rec : Prog VExpr} {r r' : List Cell} {t : Token} {a : AtomTy} (ht : tokGet env r = .ok t r')
    (ha : atomTok t.ty = some a) : run(expr9 rec, r) = .ok (.atom t.pos a t.value) r' := by
  unfold expr9
  rw [run_ok (tell_run r), run_ok (by rw [tokget_run]; exact ht)]
  cases hty : t.ty <;> rw [hty] at ha <;> simp [atomTok] at ha <;> subst ha <;> rfl

/-! ### Strings -/

def dBody (s : Str) : Prog (Str ⊕ Str) := do
  let c ← p 0
  match c with
  | .eof => errHere cs!"unexpectd EOL"
  | .eol => errHere cs!"unexpectd EOL"
  | .ch ch =>
    if ch = '"' then
      seekCur 1
      pure (.inr s)
    else if ch = '\\' then
      seekCur 1
      let d ← p 0
      match d with
      | .eof => errHere cs!"ExprTokenizer: unexpected EOL"
      | .eol => errHere cs!"ExprTokenizer: unexpected EOL"
      | .ch dh =>
        seekCur 1
        pure (.inl (s ++ [ch, dh]))
    else
      seekCur 1
      pure (.inl (s ++ [ch]))

def sBody (s : Str) : Prog (Str ⊕ Str) := do
  let c ← p 0
  match c with
  | .eof => errHere cs!"unexpected EOL"
  | .eol => errHere cs!"unexpected EOL"
  | .ch ch =>
    if ch = '\'' then
      seekCur 1
      if (← p 0) = .ch '\'' then
        seekCur 1
        pure (.inl (s ++ cs!"''"))
      else pure (.inr s)
    else
      seekCur 1
      pure (.inl (s ++ [ch]))

theorem dBody_char {s : Str} {c : Char} {q : Pos} {t : List Cell} (h1 : c ≠ '"') (h2 : c ≠ '\\') :
    run(dBody s, ⟨some c, q⟩ :: t) = .ok (.inl (s ++ [c])) t := by
  unfold dBody
  rw [run_ok (run_p0 _ _)]
  show run(if c = '"' then _ else _, _) = _
  rw [if_neg h1, if_neg h2]
  rfl

theorem dBody_esc {s : Str} {c : Char} {q q' : Pos} {t : List Cell} :
    run(dBody s, ⟨some '\\', q⟩ :: ⟨some c, q'⟩ :: t) = .ok (.inl (s ++ ['\\', c])) t := rfl

theorem dBody_end {s : Str} {q : Pos} {t : List Cell} :
    run(dBody s, ⟨some '"', q⟩ :: t) = .ok (.inr s) t := rfl

theorem sBody_char {s : Str} {c : Char} {q : Pos} {t : List Cell} (h1 : c ≠ '\'') :
    run(sBody s, ⟨some c, q⟩ :: t) = .ok (.inl (s ++ [c])) t := by
  unfold sBody
  rw [run_ok (run_p0 _ _)]
  show run(if c = '\'' then _ else _, _) = _
  rw [if_neg h1]
  rfl

theorem sBody_quote {s : Str} {q q' : Pos} {t : List Cell} :
    run(sBody s, ⟨some '\'', q⟩ :: ⟨some '\'', q'⟩ :: t) = .ok (.inl (s ++ ['\'', '\''])) t := rfl

theorem p0_run {T : Env → List Cell → Res Token} (r : List Cell) : (p 0).runWith T env r = .ok (headSym r) r := by
  cases r <;> rfl

theorem sBody_end {s : Str} {q : Pos} {t : List Cell} (h : headSym t ≠ .ch '\'') :
    run(sBody s, ⟨some '\'', q⟩ :: t) = .ok (.inr s) t := by
  unfold sBody
  rw [run_ok (run_p0 _ _)]
  show run(if '\'' = '\'' then _ else _, _) = _
  rw [if_pos rfl, run_ok (show run(seekCur 1, ⟨some '\'', q⟩ :: t) = .ok () t from rfl), run_ok (p0_run t), if_neg h]
  rfl

theorem dBody_loop {s : Str} (h : DBody s) : ∀ {r r1 : List Cell} {n : Nat} {acc : Str}, Reads r s r1 → r.length < n →
    ∃ m, r1.length < m ∧ run(loopN dBody n acc, r) = run(loopN dBody m (acc ++ s), r1) := by
  induction h with
  | nil =>
    intro r r1 n acc hr hn
    obtain rfl := hr.nil_inv
    exact ⟨n, hn, by rw [List.append_nil]⟩
  | @char s c _ h1 h2 ih =>
    intro r r1 n acc hr hn
    obtain ⟨r2, hr1, hr2⟩ := Spec.Reads.split hr
    obtain ⟨m, hm, e⟩ := ih (acc := acc) hr1 hn
    obtain ⟨q, t, rfl, hr3⟩ := hr2.cons_inv
    obtain rfl := hr3.nil_inv
    cases m with
    | zero => omega
    | succ m =>
      refine ⟨m, by simpa using hm, ?_⟩
      rw [e, loopN_inl (dBody_char h1 h2), List.append_assoc]
  | @esc s c _ ih =>
    intro r r1 n acc hr hn
    obtain ⟨r2, hr1, hr2⟩ := Spec.Reads.split hr
    obtain ⟨m, hm, e⟩ := ih (acc := acc) hr1 hn
    obtain ⟨q, t, rfl, hr3⟩ := hr2.cons_inv
    obtain ⟨q', t', rfl, hr4⟩ := hr3.cons_inv
    obtain rfl := hr4.nil_inv
    cases m with
    | zero => omega
    | succ m =>
      refine ⟨m, by simp at hm; omega, ?_⟩
      rw [e, loopN_inl dBody_esc, List.append_assoc]

theorem sBody_loop {s : Str} (h : SBody s) : ∀ {r r1 : List Cell} {n : Nat} {acc : Str}, Reads r s r1 → r.length < n →
    ∃ m, r1.length < m ∧ run(loopN sBody n acc, r) = run(loopN sBody m (acc ++ s), r1) := by
  induction h with
  | nil =>
    intro r r1 n acc hr hn
    obtain rfl := hr.nil_inv
    exact ⟨n, hn, by rw [List.append_nil]⟩
  | @char s c _ h1 ih =>
    intro r r1 n acc hr hn
    obtain ⟨r2, hr1, hr2⟩ := Spec.Reads.split hr
    obtain ⟨m, hm, e⟩ := ih (acc := acc) hr1 hn
    obtain ⟨q, t, rfl, hr3⟩ := hr2.cons_inv
    obtain rfl := hr3.nil_inv
    cases m with
    | zero => omega
    | succ m =>
      refine ⟨m, by simpa using hm, ?_⟩
      rw [e, loopN_inl (sBody_char h1), List.append_assoc]
  | @quote s _ ih =>
    intro r r1 n acc hr hn
    obtain ⟨r2, hr1, hr2⟩ := Spec.Reads.split hr
    obtain ⟨m, hm, e⟩ := ih (acc := acc) hr1 hn
    obtain ⟨q, t, rfl, hr3⟩ := hr2.cons_inv
    obtain ⟨q', t', rfl, hr4⟩ := hr3.cons_inv
    obtain rfl := hr4.nil_inv
    cases m with
    | zero => omega
    | succ m =>
      refine ⟨m, by simp at hm; omega, ?_⟩
      rw [e, loopN_inl sBody_quote, List.append_assoc]

theorem skipWhite_run {T : Env → List Cell → Res Token} {r r1 : List Cell} {w : Str} (h1 : Reads r w r1)
    (hw : ∀ c ∈ w, iswhite c = true) (h2 : (headSym r1).is iswhite = false) :
    skipWhite.runWith T env r = .ok () r1 := by
  show Res.ok () (spanS iswhite r).2 = _
  rw [spanS_of_reads h1 hw h2]

theorem getDstring_run {r r1 r' : List Cell} {w s : Str} (h1 : Reads r w r1) (hw : ∀ c ∈ w, iswhite c = true)
    (h2 : Reads r1 (['"'] ++ s ++ ['"']) r') (hs : DBody s) : run(getDstring, r) = .ok s r' := by
  obtain ⟨q, t, rfl, h3⟩ := Spec.Reads.cons_inv (show Reads r1 ('"' :: (s ++ ['"'])) r' by simpa using h2)
  obtain ⟨r2, h4, h5⟩ := Spec.Reads.split h3
  obtain ⟨q', t', rfl, h6⟩ := h5.cons_inv
  obtain rfl := h6.nil_inv
  unfold getDstring
  rw [run_ok (skipWhite_run h1 hw rfl), run_ok (run_p0 _ _), if_neg (by simp [Cell.sym]),
    run_ok (show run(seekCur 1, ⟨some '"', q⟩ :: t) = .ok () t from rfl)]
  obtain ⟨m, hm, e⟩ := dBody_loop (env := env) hs (n := t.length + 1) (acc := []) h4 (by omega)
  cases m with
  | zero => omega
  | succ m =>
    rw [loopN_inr dBody_end] at e
    exact e

theorem getSstring_run {r r1 r' : List Cell} {w s : Str} (h1 : Reads r w r1) (hw : ∀ c ∈ w, iswhite c = true)
    (h2 : Reads r1 (['\''] ++ s ++ ['\'']) r') (hs : SBody s) (hn : headSym r' ≠ .ch '\'') :
    run(getSstring, r) = .ok s r' := by
  obtain ⟨q, t, rfl, h3⟩ := Spec.Reads.cons_inv (show Reads r1 ('\'' :: (s ++ ['\''])) r' by simpa using h2)
  obtain ⟨r2, h4, h5⟩ := Spec.Reads.split h3
  obtain ⟨q', t', rfl, h6⟩ := h5.cons_inv
  obtain rfl := h6.nil_inv
  unfold getSstring
  rw [run_ok (skipWhite_run h1 hw rfl), run_ok (run_p0 _ _), if_neg (by simp [Cell.sym]),
    run_ok (show run(seekCur 1, ⟨some '\'', q⟩ :: t) = .ok () t from rfl)]
  obtain ⟨m, hm, e⟩ := sBody_loop (env := env) hs (n := t.length + 1) (acc := []) h4 (by omega)
  cases m with
  | zero => omega
  | succ m =>
    rw [loopN_inr (sBody_end hn)] at e
    exact e

/-- String literals. -/
theorem expr9_string (he : EnvOK env) {rec : Prog VExpr} {r r1 r' : List Cell} (hs : Suf env r) {w v : Str}
    (h1 : Reads r w r1) (hw : ∀ c ∈ w, iswhite c = true) (h2 : Reads r1 v r') (hv : StringLit v)
    (hr : headSym r' ≠ .ch '\'') :
    run(expr9 rec, r) = .ok (.atom (posOf env r1) .string v) r' ∧
    ∃ t r2, tokGet env r = .ok t r2 ∧ (t.ty = .dquote ∨ t.ty = .squote) := by
  rcases hv with ⟨s, hb, rfl⟩ | ⟨s, hb, rfl⟩
  · obtain ⟨r2, h4, h5⟩ := Spec.Reads.split (show Reads r1 (['"'] ++ (s ++ ['"'])) r' by simpa using h2)
    have ht := tok_of he hs h1 hw h4 (.dquote r2)
    refine ⟨?_, _, _, ht, .inl rfl⟩
    unfold expr9
    rw [run_ok (tell_run r), run_ok (by rw [tokget_run]; exact ht)]
    simp only
    rw [run_ok (seekSet_run _ _), run_ok (getDstring_run h1 hw h2 hb)]
    rfl
  · obtain ⟨r2, h4, h5⟩ := Spec.Reads.split (show Reads r1 (['\''] ++ (s ++ ['\''])) r' by simpa using h2)
    have ht := tok_of he hs h1 hw h4 (.squote r2)
    refine ⟨?_, _, _, ht, .inr rfl⟩
    unfold expr9
    rw [run_ok (tell_run r), run_ok (by rw [tokget_run]; exact ht)]
    simp only
    rw [run_ok (seekSet_run _ _), run_ok (getSstring_run h1 hw h2 hb hr)]
    rfl

/-! ### Names -/

def curlyBody (rec : Prog VExpr) (parts : List VExpr) : Prog (List VExpr ⊕ List VExpr) := do
  let c ← peek
  if c.is isnamec then
    let q ← getpos
    let name ← readName
    pure (.inl (parts ++ [VExpr.atom q .curlynamepart name]))
  else if c = .ch '{' then
    let _ ← get
    let q ← getpos
    let e ← rec
    skipWhite
    let c ← p 0
    if c ≠ .ch '}' then errHere (cs!"unexpected token: " ++ c.str)
    else
      seekCur 1
      pure (.inl (parts ++ [VExpr.curlyexpr q e]))
  else pure (.inr parts)

theorem curlyBody_stop {rec : Prog VExpr} {parts : List VExpr} {r : List Cell}
    (h1 : (headSym r).is isnamec = false) (h2 : headSym r ≠ .ch '{') :
    run(curlyBody rec parts, r) = .ok (.inr parts) r := by
  unfold curlyBody
  rw [run_ok (peek_run' r), if_neg (by simp [h1]), if_neg h2]
  rfl

theorem curlyBody_name {rec : Prog VExpr} {parts : List VExpr} {r r' : List Cell} {v : Str} (hv : Many1 isnamec v)
    (h1 : Reads r v r') (h2 : (headSym r').is isnamec = false) :
    run(curlyBody rec parts, r) = .ok (.inl (parts ++ [.atom (posOf env r) .curlynamepart v])) r' := by
  unfold curlyBody
  rw [run_ok (peek_run' r), if_pos (headSym_many1 hv h1), run_ok (getpos_run r)]
  have : run(readName, r) = .ok v r' := by
    unfold readName
    rw [run_readWhile, spanS_of_reads h1 hv.2 h2]
  rw [run_ok this]
  rfl

theorem lowerC_lt {c : Char} (h : lowerC c = '<') : c = '<' := by
  unfold lowerC at h
  split at h
  · rename_i hu
    exfalso
    simp only [isUpperC, Bool.and_eq_true, decide_eq_true_eq] at hu
    have h2 : 65 ≤ c.toNat ∧ c.toNat ≤ 90 := hu
    have h3 : (Char.ofNat (c.toNat + 32)).toNat = c.toNat + 32 := toNat_ofNat_valid (Or.inl (by omega))
    rw [h] at h3
    have h4 : ('<').toNat = 60 := rfl
    omega
  · split at h
    · exact absurd h (by decide)
    · split at h
      · exact absurd h (by decide)
      · exact h

/-- `<SID>` in any case. -/
theorem sid_cons {v : Str} (h : equalci v cs!"<SID>" = true) :
    ∃ s, v = '<' :: s ∧ equalci s cs!"SID>" = true ∧ s.length = 4 := by
  match v, h with
  | c :: s, h =>
    have h1 : (c :: s).map lowerC = (cs!"<SID>").map lowerC := by simpa [equalci] using h
    rw [List.map_cons] at h1
    have h2 : lowerC c = '<' ∧ s.map lowerC = (cs!"SID>").map lowerC := by
      have h3 := List.cons.inj h1
      exact ⟨h3.1.trans (by decide), h3.2⟩
    obtain rfl := lowerC_lt h2.1
    refine ⟨s, rfl, by simpa [equalci] using h2.2, ?_⟩
    have := congrArg List.length h2.2
    simpa using this

theorem nameShape_head {v : Str} (h : NameShape v) : ∃ c s, v = c :: s ∧ (iswordc1 c = true ∨ c = '<') := by
  rcases h with ⟨c, s, rfl, h, _⟩ | h
  · exact ⟨c, s, rfl, .inl h⟩
  · obtain ⟨s, rfl, _⟩ := sid_cons h
    exact ⟨_, s, rfl, .inr rfl⟩

theorem wordc1_white {c : Char} (h : iswordc1 c = true) : iswhite c = false := by
  cases hw : iswhite c with
  | false => rfl
  | true =>
    have := (iswhite_namec hw).1
    rw [wordc1_namec h] at this
    cases this

theorem parseIdentifier_run {rec : Prog VExpr} {r r1 r' : List Cell} {w v : Str} (h1 : Reads r w r1)
    (hw : ∀ c ∈ w, iswhite c = true) (h2 : Reads r1 v r') (hv : NameShape v)
    (hr1 : (headSym r').is isnamec = false) (hr2 : headSym r' ≠ .ch '{') :
    run(parseIdentifier rec, r) = .ok (.atom (posOf env r1) .identifier v) r' := by
  obtain ⟨c, s, rfl, hc⟩ := nameShape_head hv
  have hh := headSym_of_reads h2
  have hcw : iswhite c = false := by
    rcases hc with h | rfl
    · exact wordc1_white h
    · rfl
  unfold parseIdentifier
  rw [run_ok (skipWhite_run h1 hw (by rw [hh]; exact hcw)), run_ok (getpos_run r1)]
  have key : ∃ q, run(parseCurlyParts rec, r1) = .ok [.atom q .curlynamepart (c :: s)] r' := by
    refine ⟨posOf env r1, ?_⟩
    unfold parseCurlyParts
    rw [run_ok (peek_run' r1), run_ok (getpos_run r1), run_ok (run_peekn 5 r1)]
    rcases hv with ⟨c', s', h, hc1, hs'⟩ | h
    · cases h
      have hne : ¬ (headSym r1 = .ch '<' ∧ equalci (getnS 5 r1).1 cs!"<SID>" = true) := by
        rintro ⟨h, _⟩
        rw [hh] at h
        cases h
        exact absurd hc1 (by decide)
      rw [if_neg hne]
      have hm : Many1 isnamec (c :: s) := ⟨by simp, by
        intro x hx
        rcases List.mem_cons.1 hx with rfl | hx
        · exact wordc1_namec hc1
        · exact hs' x hx⟩
      rw [run_ok (show run((pure [] : Prog (List VExpr)), r1) = .ok [] r1 from rfl)]
      show run(loopN (curlyBody rec) (r1.length + 1) [], r1) = _
      rw [loopN_inl (curlyBody_name hm h2 hr1)]
      obtain ⟨n, hn⟩ : ∃ n, r1.length = n + 1 := ⟨r1.length - 1, by have := (h2.sadv (by simp)).lt; omega⟩
      rw [hn, loopN_inr (curlyBody_stop hr1 hr2)]
      rfl
    · obtain ⟨s', h', _, hl⟩ := sid_cons h
      cases h'
      have h5 : getnS 5 r1 = ('<' :: s, r') := by
        have := getnS_of_reads h2
        rwa [show ('<' :: s).length = 5 by simp [hl]] at this
      rw [if_pos ⟨hh, by rw [h5]; exact h⟩]
      rw [run_ok (show run(getn 5, r1) = .ok ('<' :: s) r' by rw [run_getn, h5]), run_ok (run_pure _ _)]
      show run(loopN (curlyBody rec) (r'.length + 1) _, r') = _
      rw [loopN_inr (curlyBody_stop hr1 hr2)]
  obtain ⟨q, hk⟩ := key
  rw [run_ok hk]
  rfl

/-- The first token of a name. -/
theorem name_tok (he : EnvOK env) {r r1 r' : List Cell} (hs : Suf env r) {w v : Str} (h1 : Reads r w r1)
    (hw : ∀ c ∈ w, iswhite c = true) (h2 : Reads r1 v r') (hv : NameShape v)
    (hr : (headSym r').is isnamec = false) (hq : headSym r' ≠ .ch '?') :
    ∃ t r2, tokGet env r = .ok t r2 ∧ (t.ty = .identifier ∨ isIsToken t.ty = true ∨
      t.ty = .cmp .smaller .plain ∧ equalci (getnS 4 r2).1 cs!"SID>" = true) := by
  rcases hv with ⟨c, s, rfl, hc1, hs'⟩ | h
  · by_cases hi : isWord (c :: s)
    · obtain ⟨o, x, ho, hx, hn⟩ := hi
      rw [hx] at h2
      obtain ⟨r2, h3, h4⟩ := Spec.Reads.split h2
      have hk : ∃ k, (k = .is_ ∨ k = .isnot) ∧ o = cmpText k := by
        rcases ho with rfl | rfl
        · exact ⟨.is_, .inl rfl, rfl⟩
        · exact ⟨.isnot, .inr rfl, rfl⟩
      obtain ⟨k, hk, rfl⟩ := hk
      by_cases hsh : headSym r2 = .ch '#'
      · obtain ⟨q, t, h5, h5'⟩ := headSym_ch hsh
        have h6 : Reads r2 ['#'] t := by rw [h5]; exact Reads.one h5'
        have ht := tok_of he hs h1 hw (h3.append h6) (.cmpCase k .cs t (by decide))
        exact ⟨_, _, ht, .inr (.inl (by rcases hk with rfl | rfl <;> rfl))⟩
      · have hx' : ∀ y ∈ x, isnamec y = true := by
          intro y hy
          have : y ∈ c :: s := by rw [hx]; exact List.mem_append_right _ hy
          rcases List.mem_cons.1 this with rfl | h
          · exact wordc1_namec hc1
          · exact hs' y h
        have hnq : headSym r2 ≠ .ch '?' := by
          cases x with
          | nil => rw [h4.nil_inv]; exact hq
          | cons y x =>
            rw [headSym_of_reads h4]
            intro h; cases h
            exact absurd (hx' '?' (by simp)) (by decide)
        have hnw : (headSym r2).is iswordc = false := by
          cases x with
          | nil =>
            rw [h4.nil_inv]
            cases hh : headSym r' with
            | ch y =>
              rw [hh] at hr
              cases hy : iswordc y with
              | false => exact hy
              | true => rw [Sym.is, wordc_namec hy] at hr; cases hr
            | eol => rfl
            | eof => rfl
          | cons y x =>
            rw [headSym_of_reads h4]
            exact hn y rfl
        have ht := tok_of he hs h1 hw h3 (.cmp k r2 hnq hsh (by rcases hk with rfl | rfl <;> simp) fun _ => hnw)
        exact ⟨_, _, ht, .inr (.inl (by rcases hk with rfl | rfl <;> rfl))⟩
    · exact ⟨_, _, tok_of he hs h1 hw h2 (.ident c s r' hc1 hs' hr hi), .inl rfl⟩
  · obtain ⟨s, rfl, h4, hl⟩ := sid_cons h
    obtain ⟨r2, h3, h5⟩ := Spec.Reads.split (show Reads r1 (['<'] ++ s) r' from h2)
    have h6 : getnS 4 r2 = (s, r') := by
      have := getnS_of_reads h5
      rwa [hl] at this
    have hlow : ∀ x, headSym r2 = .ch x → lowerC x = 's' := by
      match s, h4, h5 with
      | y :: s, h4, h5 =>
        intro x hx
        rw [headSym_of_reads h5] at hx
        cases hx
        have h7 : (y :: s).map lowerC = (cs!"SID>").map lowerC := by simpa [equalci] using h4
        exact (List.cons.inj h7).1.trans (by decide)
    have hne : ∀ x, lowerC x ≠ 's' → headSym r2 ≠ .ch x := fun x hx h => hx (hlow x h)
    have ht := tok_of he hs h1 hw h3 (.cmp .smaller r2 (hne _ (by decide)) (hne _ (by decide))
      (fun _ => hne _ (by decide)) (by simp))
    exact ⟨_, _, ht, .inr (.inr ⟨rfl, by rw [h6]; exact h4⟩)⟩

/-- Names. -/
theorem expr9_name (he : EnvOK env) {rec : Prog VExpr} {r r1 r' : List Cell} (hs : Suf env r) {w v : Str}
    (h1 : Reads r w r1) (hw : ∀ c ∈ w, iswhite c = true) (h2 : Reads r1 v r') (hv : NameShape v)
    (hr : (headSym r').is isnamec = false) (hq : headSym r' ≠ .ch '?') (hb : headSym r' ≠ .ch '{') :
    run(expr9 rec, r) = .ok (.atom (posOf env r1) .identifier v) r' ∧
    ∃ t r2, tokGet env r = .ok t r2 ∧ opsUnary t.ty = none ∧ t.ty ≠ .colon := by
  obtain ⟨t, r2, ht, h⟩ := name_tok he hs h1 hw h2 hv hr hq
  have hp := parseIdentifier_run (env := env) (rec := rec) h1 hw h2 hv hr hb
  refine ⟨?_, t, r2, ht, ?_⟩
  · unfold expr9
    rw [run_ok (tell_run r), run_ok (by rw [tokget_run]; exact ht)]
    rcases h with h | h | ⟨h, h'⟩
    · rw [h]
      exact (run_ok (seekSet_run _ _)).trans hp
    · have : ∃ k m, t.ty = .cmp k m ∧ ((k = .is_ ∨ k = .isnot) ∧ (m = .plain ∨ m = .cs)) := by
        cases hty : t.ty <;> rw [hty] at h <;> simp only [isIsToken, Bool.false_eq_true] at h
        rename_i k m
        cases k <;> cases m <;> first | exact absurd h (by decide) | exact ⟨_, _, rfl, by simp⟩
      obtain ⟨k, m, h', hk⟩ := this
      rw [h']
      rcases hk with ⟨rfl | rfl, rfl | rfl⟩ <;> exact (run_ok (seekSet_run _ _)).trans hp
    · rw [h]
      simp only
      rw [run_ok (run_peekn 4 r2), if_pos h', run_ok (seekSet_run _ _)]
      exact hp
  · rcases h with h | h | ⟨h, _⟩
    · rw [h]; decide
    · revert h; cases t.ty <;> simp [isIsToken, opsUnary]
    · rw [h]; decide

end
end Viml
