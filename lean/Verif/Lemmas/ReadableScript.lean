/-
The lines of a list of statements determine the statements.  Used by C74.
-/
import Verif.Lemmas.ReadableHead

namespace Viml.Readable
open Viml Viml.Spec

/-! ### No line breaks -/

theorem words_nl : ∀ {l : List Str}, (∀ w ∈ l, '\n' ∉ w) → '\n' ∉ words l
  | [], _ => by simp [words]
  | [w], h => by simpa [words] using h
  | w :: w' :: l, h => by
    have ih := words_nl (l := w' :: l) fun x hx => h x (by simp [hx])
    have hw := h w (by simp)
    simp only [words, List.intercalate, List.intersperse, List.flatten_cons, List.mem_append] at ih ⊢
    simp only [not_or]
    exact ⟨hw, by decide, ih⟩

theorem sxs_mem : ∀ {l : List Ast.Expr} {x : SX}, x ∈ sxs l → ∃ e ∈ l, x = sx e
  | [], _, h => by cases h
  | e :: l, x, h => by
    simp only [sxs, List.mem_cons] at h
    rcases h with rfl | h
    · exact ⟨e, by simp, rfl⟩
    · obtain ⟨e', h1, h2⟩ := sxs_mem h
      exact ⟨e', by simp [h1], h2⟩

theorem sxWords_nl {l : List Ast.Expr} (h : ∀ e ∈ l, '\n' ∉ (sx e).text) : '\n' ∉ sxWords l := by
  refine words_nl fun w hw => ?_
  obtain ⟨x, hx, rfl⟩ := List.mem_map.1 hw
  obtain ⟨e, he, rfl⟩ := sxs_mem hx
  exact h e he

theorem lhs_nl {l : Option Ast.Expr} {ls : List Ast.Expr} {x : Option Ast.Expr}
    (h : ∀ e ∈ l.toList ++ ls ++ x.toList, '\n' ∉ (sx e).text) : '\n' ∉ lhsText l ls x := by
  have h1 := sxWords_nl (l := ls) fun e he => h e (by simp [he])
  cases l with
  | some e => exact h e (by simp)
  | none =>
    cases x with
    | none => simp [lhsText, h1]
    | some r =>
      have := h r (by simp)
      simp [lhsText, h1, this]

theorem bs_nl {s : Str} (h : '\n' ∉ s) : '\n' ∉ bs s := by
  intro hm
  simp only [bs, List.mem_flatMap] at hm
  obtain ⟨c, h1, h2⟩ := hm
  split at h2 <;> rename_i h3
  · simp only [List.mem_cons, List.not_mem_nil, or_false] at h2
    rcases h2 with h2 | rfl
    · cases h2
    · exact h h1
  · simp only [List.mem_singleton] at h2
    subst h2
    exact h h1

theorem depth_nl (d : Nat) : '\n' ∉ depthWord d := by
  unfold depthWord
  split
  · simp
  · intro hm
    rcases List.mem_append.1 hm with hm | hm
    · exact absurd (Nat.isDigit_of_mem_toDigits (by omega) (by omega) hm) (by decide)
    · simp at hm

theorem letOps_nl : ∀ op ∈ letOps, '\n' ∉ op := by decide

theorem indent_nl (d : Nat) : '\n' ∉ indent d := by
  intro h
  cases List.eq_of_mem_replicate h

theorem args_nl {d : Nat} {s : Ast.Stmt} (h : S s) (hx : stag s ≠ 1) : '\n' ∉ args d s := by
  have he := fun e he => (h.exprs e he).2
  have ht := h.text
  cases s
  case excmd => simp [stag] at hx
  case function q ea b n ps da at_ e =>
    have h1 := he n (by simp [exprsOf])
    have h2 := (h.sig _ _ _ _ _ _ _ _ rfl).2
    have h3 := indent_nl d
    simp only [args, List.mem_append, not_or]
    refine ⟨by decide, h1, ⟨?_, h3⟩, by decide⟩
    split
    · simp
    · simp only [List.mem_append, not_or]
      exact ⟨⟨⟨h3, by decide⟩, h3⟩, h2⟩
  case return_ q ea r =>
    cases r with
    | none => simp [args]
    | some e => simpa [args] using he e (by simp [exprsOf])
  case let_ q ea op l ls rest r =>
    have h1 := letOps_nl op (h.op _ _ _ _ _ _ _ rfl)
    have h2 := lhs_nl (l := l) (ls := ls) (x := rest) fun e hm => he e (by
      simp only [exprsOf, List.mem_append] at hm ⊢
      exact .inl hm)
    have h3 := he r (by simp [exprsOf])
    simp [args, h1, h2, h3]
  case for_ q ea b l ls rest r e =>
    have h2 := lhs_nl (l := l) (ls := ls) (x := rest) fun e hm => he e (by
      simp only [exprsOf, List.mem_append] at hm ⊢
      exact .inl hm)
    have h3 := he r (by simp [exprsOf])
    simp [args, h2, h3]
  case unLet q ea ls => simpa [args] using sxWords_nl (l := ls) he
  case echoCmd q n ea ls => simpa [args] using sxWords_nl (l := ls) he
  case execute q ea ls => simpa [args] using sxWords_nl (l := ls) he
  case lockVar q ea d ls => simpa [args] using ⟨depth_nl d, sxWords_nl (l := ls) he⟩
  case unLockVar q ea d ls => simpa [args] using ⟨depth_nl d, sxWords_nl (l := ls) he⟩
  case echohl q ea n => simpa [args] using bs_nl (s := n) ht
  case catch_ q ea b p =>
    simp only [args]
    split
    · simp
    · simpa [textOf] using ht
  case delFunction q ea n => simpa [args] using he n (by simp [exprsOf])
  case exCall q ea f lp as => simpa [args] using he (.call f lp as) (by simp [exprsOf])
  case if_ q ea b c eis el e => simpa [args] using he c (by simp [exprsOf])
  case elseIf q ea b c => simpa [args] using he c (by simp [exprsOf])
  case while_ q ea b c e => simpa [args] using he c (by simp [exprsOf])
  case throw q ea n => simpa [args] using he n (by simp [exprsOf])
  case eval q ea n => simpa [args] using he n (by simp [exprsOf])
  all_goals simp [args]

/-! ### Lines -/

theorem opens_names (s : Ast.Stmt) (hp : part s = 0) : ∀ n ∈ nms s,
    [cs!"if", cs!"while", cs!"for", cs!"try", cs!"function"].contains n = (kind s != .other) := by
  cases s <;> first | (simp [part, kind, isPart] at hp; done) | skip
  all_goals simp only [nms, cmdNames, kind] <;> decide

theorem excmd_names (s : Ast.Stmt) (h : stag s ≠ 1) : cs!"excmd" ∉ nms s := by
  cases s <;> first | (simp [stag] at h; done) | (simp only [nms, cmdNames]; decide)

theorem takeWhile_all {f : Char → Bool} : ∀ l : Str, (∀ c ∈ l, f c = true) → l.takeWhile f = l
  | [], _ => rfl
  | c :: l, h => by
    rw [List.takeWhile_cons, h c (by simp), if_pos rfl, takeWhile_all l fun c hc => h c (by simp [hc])]

theorem hw_head {d : Nat} {s : Ast.Stmt} (hn : nameOK s) (hc : isComment s = false) (hp : part s = 0) :
    (head d s).head? = some '(' ∧ hw (head d s) = nm s := by
  rw [head_eq d s hc, hp, if_neg (by decide)]
  refine ⟨rfl, ?_⟩
  show (nm s ++ args d s).takeWhile isalpha = nm s
  rw [takeWhile_stop _ _ (args_sep d s), takeWhile_all _ (nms_alpha s _ (nm_mem hn hc)).2]

theorem part_kind {s : Ast.Stmt} (h : part s = 1) : kind s ≠ .other := by
  intro e
  simp [part, e, isPart] at h

theorem fine_line {d : Nat} {s : Ast.Stmt} (h : S s) : Fine (lnOf d s) := by
  have hp := part_le s
  have hup : upTo (2 * d + part s) = d + part s := by unfold upTo; omega
  obtain ⟨c, t, h1, h2⟩ := head_first (d := d) h.name
  refine ⟨⟨c, t, h1, ?_⟩, ?_, ?_⟩
  · rcases h2 with ⟨rfl, _⟩ | ⟨_, ⟨rfl, _⟩ | ⟨h2, _⟩⟩
    · decide
    · decide
    · rintro rfl; exact absurd h2 (by decide)
  · show (if kind s = .other then d else d + 1) = upTo (2 * d + part s) + if opn (head d s) then 1 else 0
    rw [hup]
    rcases h2 with ⟨rfl, hc⟩ | ⟨hc, ⟨rfl, h3⟩ | ⟨h2, h3⟩⟩
    · have h4 : opn (head d s) = false := by simp [opn, h1]
      have h5 : kind s = .other ∧ part s = 0 := by cases s <;> first | (simp [isComment] at hc; done) | exact ⟨rfl, rfl⟩
      rw [h4, h5.1, h5.2]
      simp
    · obtain ⟨h4, h5⟩ := hw_head (d := d) h.name hc h3
      have h6 : opn (head d s) = (kind s != .other) := by
        rw [opn, h4, h5, opens_names s h3 _ (nm_mem h.name hc)]
        simp
      rw [h6, h3]
      by_cases hk : kind s = .other <;> simp [hk]
    · have h4 : opn (head d s) = false := by
        have : (some c == some '(') = false := by
          cases hcc : (some c == some '(')
          · rfl
          · have : c = '(' := by simpa using hcc
            subst this
            exact absurd h2 (by decide)
        simp only [opn, h1, List.head?_cons, this, Bool.false_and]
      rw [h4, h3, if_neg (part_kind h3)]
      simp
  · by_cases hx : stag s = 1
    · refine .inr ?_
      cases s <;> first | (simp [stag] at hx; done) | skip
      rename_i q ea str
      exact ⟨str, by simp [lnOf, head, firstLine, form]⟩
    · refine .inl ⟨?_, ?_⟩
      · show '\n' ∉ head d s
        rcases h2 with ⟨rfl, hc⟩ | ⟨hc, _⟩
        · rw [head_comment d s hc]
          simpa using h.text
        · rw [head_eq d s hc]
          simp only [List.mem_append, not_or]
          refine ⟨by split <;> decide, ?_, args_nl h hx⟩
          intro hm
          exact absurd ((nms_alpha s _ (nm_mem h.name hc)).2 _ hm) (by decide)
      · show ¬ ((head d s).head? = some '(' ∧ hw (head d s) = cs!"excmd")
        rintro ⟨h3, h4⟩
        rcases h2 with ⟨rfl, hc⟩ | ⟨hc, ⟨rfl, h5⟩ | ⟨h5, h6⟩⟩
        · rw [h1] at h3; cases h3
        · rw [(hw_head (d := d) h.name hc h5).2] at h4
          have := nm_mem h.name hc
          rw [h4] at this
          exact excmd_names s hx this
        · rw [h1] at h3; cases h3; exact absurd h5 (by decide)

/-! ### Bodies -/

/-- The body. -/
def body : Ast.Stmt → List Ast.Stmt
  | .function _ _ b _ _ _ _ _ | .if_ _ _ b _ _ _ _ | .elseIf _ _ b _ | .else_ _ _ b | .while_ _ _ b _ _
  | .for_ _ _ b _ _ _ _ _ | .try_ _ _ b _ _ _ | .catch_ _ _ b _ | .finally_ _ _ b => b
  | _ => []

/-- The parts: those of which there may be any number. -/
def parts1 : Ast.Stmt → List Ast.Stmt
  | .if_ _ _ _ _ eis _ _ => eis
  | .try_ _ _ _ cs _ _ => cs
  | _ => []

/-- The last part. -/
def part2 : Ast.Stmt → Option Ast.Stmt
  | .if_ _ _ _ _ _ el _ => el
  | .try_ _ _ _ _ fi _ => fi
  | _ => none

theorem flat_eq (d : Nat) (s : Ast.Stmt) :
    flat d s = lnOf d s :: (flatL (d + 1) (body s) ++ flatL d (parts1 s ++ (part2 s).toList)) := by
  cases s <;> simp [flat, body, parts1, part2, flatL, flatL_append, flatO_list]

/-- A statement with another body and other parts. -/
def fill : Ast.Stmt → List Ast.Stmt → List Ast.Stmt → Option Ast.Stmt → Ast.Stmt
  | .function q ea _ n ps da a e, b, _, _ => .function q ea b n ps da a e
  | .if_ q ea _ c _ _ e, b, p, o => .if_ q ea b c p o e
  | .elseIf q ea _ c, b, _, _ => .elseIf q ea b c
  | .else_ q ea _, b, _, _ => .else_ q ea b
  | .while_ q ea _ c e, b, _, _ => .while_ q ea b c e
  | .for_ q ea _ l ls rest r e, b, _, _ => .for_ q ea b l ls rest r e
  | .try_ q ea _ _ _ e, b, p, o => .try_ q ea b p o e
  | .catch_ q ea _ p, b, _, _ => .catch_ q ea b p
  | .finally_ q ea _, b, _, _ => .finally_ q ea b
  | s, _, _, _ => s

theorem plain_fill (s : Ast.Stmt) : plain s = fill (plain (strip s)) (plainL (body s)) (plainL (parts1 s)) (plainO (part2 s)) := by
  cases s <;> simp [plain, strip, fill, body, parts1, part2]

theorem kind_strip (s : Ast.Stmt) : kind (plain (strip s)) = kind s := by
  cases s <;> simp [plain, strip, kind]

theorem kind_plain (s : Ast.Stmt) : kind (plain s) = kind s := by
  cases s <;> simp [plain, kind]

/-- What is used of the parts of a statement. -/
structure Inner (s : Ast.Stmt) (k1 k2 : Kind) : Prop where
  body : ∀ x ∈ body s, part x = 0
  p1 : ∀ x ∈ parts1 s, kind x = k1
  p2 : ∀ x, part2 s = some x → kind x = k2

/-- The kinds of the parts. -/
def kinds : Kind → Kind × Kind
  | .try_ => (.catch_, .finally_)
  | _ => (.elseIf, .else_)

theorem kinds_ne (k : Kind) : (kinds k).1 ≠ (kinds k).2 ∧ isPart (kinds k).1 = true ∧ isPart (kinds k).2 = true := by
  cases k <;> decide

theorem inner {s : Ast.Stmt} (h : wellPlaced s) : Inner s (kinds (kind s)).1 (kinds (kind s)).2 := by
  cases s <;> first
    | exact ⟨noParts h, by simp [parts1], by simp [part2]⟩
    | exact ⟨noParts h.1, h.2.1, h.2.2⟩
    | exact ⟨by simp [Readable.body], by simp [parts1], by simp [part2]⟩

theorem no_inner {s : Ast.Stmt} (h : part s ≠ 0) : parts1 s = [] ∧ part2 s = none := by
  cases s <;> first | exact ⟨rfl, rfl⟩ | exact absurd rfl h

theorem body_sub {s x : Ast.Stmt} (h : x ∈ body s) : x ∈ subStmts s := by
  cases s <;> simp only [body, List.not_mem_nil] at h <;> simp [subStmts, h]

theorem parts_sub {s x : Ast.Stmt} (h : x ∈ parts1 s ++ (part2 s).toList) : x ∈ subStmts s := by
  cases s <;> simp [parts1, part2] at h <;> rcases h with h | h <;> simp [subStmts, h]

theorem plainL_map : ∀ l : List Ast.Stmt, plainL l = l.map plain
  | [] => rfl
  | s :: l => by simp [plainL, plainL_map l]

theorem plainO_map (o : Option Ast.Stmt) : plainO o = o.map plain := by
  cases o <;> simp [plainO]

/-- A list of parts ends with at most one of the second kind. -/
theorem split_parts {k1 k2 : Kind} (hk : k1 ≠ k2) : ∀ (a b : List Ast.Stmt) (o o' : Option Ast.Stmt), (∀ x ∈ a, kind x = k1) →
    (∀ x ∈ b, kind x = k1) → (∀ x, o = some x → kind x = k2) → (∀ x, o' = some x → kind x = k2) →
    a ++ o.toList = b ++ o'.toList → a = b ∧ o = o'
  | [], [], o, o', _, _, _, _, e => by
    cases o <;> cases o' <;> simp_all
  | [], y :: b, o, o', _, hb, ho, _, e => by
    cases o with
    | none => cases e
    | some x =>
      simp only [Option.toList, List.nil_append, List.cons_append, List.cons.injEq] at e
      have := ho x rfl
      rw [e.1, hb y (by simp)] at this
      exact absurd this hk
  | y :: a, [], o, o', ha, _, _, ho, e => by
    cases o' with
    | none => cases e
    | some x =>
      simp only [Option.toList, List.nil_append, List.cons_append, List.cons.injEq] at e
      have := ho x rfl
      rw [← e.1, ha y (by simp)] at this
      exact absurd this hk
  | x :: a, y :: b, o, o', ha, hb, ho, ho', e => by
    simp only [List.cons_append, List.cons.injEq] at e
    obtain ⟨h1, h2⟩ := split_parts hk a b o o' (fun x hx => ha x (by simp [hx])) (fun x hx => hb x (by simp [hx])) ho ho' e.2
    exact ⟨by rw [e.1, h1], h2⟩

/-! ### Reading statements -/

/-- The first line has fewer than `n` blanks. -/
def Low (n : Nat) (r : List Ln) : Prop := ∀ x t, r = x :: t → x.b < n

/-- What is shown of a statement. -/
def RdS (s : Ast.Stmt) : Prop := ∀ (d : Nat) (s' : Ast.Stmt) (r r' : List Ln), AllS (fun _ s => S s) [] s' → Low (2 * d + 1 + part s) r →
  Low (2 * d + 1 + part s) r' → part s = part s' → flat d s ++ r = flat d s' ++ r' → plain s = plain s' ∧ r = r'

theorem low_flatL {d p n : Nat} {ss : List Ast.Stmt} (h : ∀ s ∈ ss, part s = p) (hn : 2 * d + p < n) {r : List Ln} (hr : Low n r) :
    Low n (flatL d ss ++ r) := by
  cases ss with
  | nil => exact hr
  | cons s ss =>
    intro x t e
    obtain ⟨u, hu⟩ := flat_cons d s
    rw [flatL, hu] at e
    cases e
    show 2 * d + part s < n
    rw [h s (by simp)]
    exact hn

theorem low_mono {n m : Nat} {r : List Ln} (h : n ≤ m) (hr : Low n r) : Low m r := fun x t e => by
  have := hr x t e
  omega

theorem rdLs {d p : Nat} : ∀ (ss ss' : List Ast.Stmt) (r r' : List Ln), (∀ s ∈ ss, RdS s) → (∀ s ∈ ss', AllS (fun _ s => S s) [] s) →
    (∀ s ∈ ss, part s = p) → (∀ s ∈ ss', part s = p) → Low (2 * d + p) r → Low (2 * d + p) r' →
    flatL d ss ++ r = flatL d ss' ++ r' → plainL ss = plainL ss' ∧ r = r'
  | [], [], r, r', _, _, _, _, _, _, e => ⟨rfl, e⟩
  | [], s :: ss', r, r', _, _, _, hp, hr, _, e => by
    obtain ⟨u, hu⟩ := flat_cons d s
    rw [flatL, flatL, hu] at e
    have : 2 * d + part s < 2 * d + p := hr _ _ e
    have := hp s (by simp)
    omega
  | s :: ss, [], r, r', _, _, hp, _, _, hr, e => by
    obtain ⟨u, hu⟩ := flat_cons d s
    rw [flatL, flatL, hu] at e
    have : 2 * d + part s < 2 * d + p := hr _ _ e.symm
    have := hp s (by simp)
    omega
  | s :: ss, s' :: ss', r, r', h, h', hp, hp', hr, hr', e => by
    have hps := hp s (by simp)
    have hps' := hp' s' (by simp)
    rw [flatL, flatL, List.append_assoc, List.append_assoc] at e
    obtain ⟨e1, e2⟩ := h s (by simp) d s' _ _ (h' s' (by simp))
      (low_flatL (fun s hs => hp s (by simp [hs])) (by omega) (low_mono (by omega) hr))
      (low_flatL (fun s hs => hp' s (by simp [hs])) (by omega) (low_mono (by omega) hr')) (by rw [hps, hps']) e
    obtain ⟨e3, e4⟩ := rdLs ss ss' r r' (fun s hs => h s (by simp [hs])) (fun s hs => h' s (by simp [hs]))
      (fun s hs => hp s (by simp [hs])) (fun s hs => hp' s (by simp [hs])) hr hr' e2
    exact ⟨by rw [plainL, plainL, e1, e3], e4⟩

theorem allS_ctx {P : Ast.Stmt → Prop} {c c' : List Kind} {s : Ast.Stmt} (h : AllS (fun _ s => P s) c s) : AllS (fun _ s => P s) c' s := by
  induction h generalizing c' with
  | mk ctx s h1 _ ih => exact .mk _ _ h1 fun x hx => ih x hx

theorem rdS {c : List Kind} {s : Ast.Stmt} (h : AllS (fun _ s => S s) c s) : RdS s := by
  induction h with
  | mk ctx s h1 h0 ih =>
    clear h0
    intro d s' r r' h' hr hr' hp e
    cases h' with
    | mk _ _ h1' h2' =>
    have hple := part_le s
    rw [flat_eq, flat_eq, List.cons_append, List.cons_append, List.cons.injEq] at e
    obtain ⟨e1, e2⟩ := e
    have e3 : plain (strip s) = plain (strip s') := line_inj h1 h1' (congrArg Ln.h e1)
    have hk : kind s = kind s' := by rw [← kind_strip s, e3, kind_strip]
    have i := inner h1.parts
    have i' := inner h1'.parts
    rw [← hk] at i'
    have hpp : ∀ {s : Ast.Stmt} {k}, Inner s (kinds k).1 (kinds k).2 → ∀ x ∈ parts1 s ++ (part2 s).toList, part x = 1 := by
      intro s k i x hx
      rcases List.mem_append.1 hx with hx | hx
      · simp [part, i.p1 x hx, (kinds_ne k).2.1]
      · simp [part, i.p2 x (Option.mem_toList.1 hx), (kinds_ne k).2.2]
    rw [List.append_assoc, List.append_assoc] at e2
    obtain ⟨b1, e4⟩ := rdLs (d := d + 1) (p := 0) (body s) (body s') _ _ (fun x hx => ih x (body_sub hx))
      (fun x hx => allS_ctx (h2' x (body_sub hx))) i.body i'.body
      (low_flatL (hpp i) (by omega) (low_mono (by omega) hr)) (low_flatL (hpp i') (by omega) (low_mono (by omega) hr')) e2
    have e5 : plainL (parts1 s) = plainL (parts1 s') ∧ plainO (part2 s) = plainO (part2 s') ∧ r = r' := by
      by_cases h0 : part s = 0
      · rw [h0] at hr hr'
        obtain ⟨b2, e6⟩ := rdLs (d := d) (p := 1) _ _ r r' (fun x hx => ih x (parts_sub hx))
          (fun x hx => allS_ctx (h2' x (parts_sub hx))) (hpp i) (hpp i') hr hr' e4
        rw [plainL_map, plainL_map, List.map_append, List.map_append, ← Option.toList_map, ← Option.toList_map] at b2
        have km : ∀ {l : List Ast.Stmt} {k}, (∀ x ∈ l, kind x = k) → ∀ x ∈ l.map plain, kind x = k := by
          intro l k h x hx
          obtain ⟨y, hy, rfl⟩ := List.mem_map.1 hx
          rw [kind_plain, h y hy]
        have ko : ∀ {o : Option Ast.Stmt} {k}, (∀ x, o = some x → kind x = k) → ∀ x, o.map plain = some x → kind x = k := by
          intro o k h x hx
          cases o with
          | none => cases hx
          | some y => cases hx; rw [kind_plain, h y rfl]
        obtain ⟨b3, b4⟩ := split_parts (kinds_ne (kind s)).1 _ _ _ _ (km i.p1) (km i'.p1) (ko i.p2) (ko i'.p2) b2
        exact ⟨by rw [plainL_map, plainL_map, b3], by rw [plainO_map, plainO_map, b4], e6⟩
      · obtain ⟨n1, n2⟩ := no_inner h0
        obtain ⟨n1', n2'⟩ := no_inner (hp ▸ h0)
        rw [n1, n2, n1', n2'] at e4
        exact ⟨by rw [n1, n1'], by rw [n2, n2'], e4⟩
    exact ⟨by rw [plain_fill s, plain_fill s', e3, b1, e5.1, e5.2.1], e5.2.2⟩

theorem flat_fine {c : List Kind} {s : Ast.Stmt} (h : AllS (fun _ s => S s) c s) : ∀ d, ∀ x ∈ flat d s, Fine x := by
  induction h with
  | mk ctx s h1 h0 ih =>
    clear h0
    intro d x hx
    have fl : ∀ {d : Nat} {l : List Ast.Stmt}, (∀ y ∈ l, ∀ d, ∀ x ∈ flat d y, Fine x) → ∀ x ∈ flatL d l, Fine x := by
      intro d l
      induction l with
      | nil => intro _ x hx; cases hx
      | cons y l ih =>
        intro h x hx
        rw [flatL, List.mem_append] at hx
        rcases hx with hx | hx
        · exact h y (by simp) d x hx
        · exact ih (fun y hy => h y (by simp [hy])) x hx
    rw [flat_eq, List.mem_cons, List.mem_append] at hx
    rcases hx with rfl | hx | hx
    · exact fine_line h1
    · exact fl (fun y hy => ih y (body_sub hy)) x hx
    · exact fl (fun y hy => ih y (parts_sub hy)) x hx

theorem flatL_fine {d : Nat} : ∀ {l : List Ast.Stmt}, (∀ s ∈ l, AllS (fun _ s => S s) [] s) → ∀ x ∈ flatL d l, Fine x
  | [], _, x, hx => by cases hx
  | s :: l, h, x, hx => by
    rw [flatL, List.mem_append] at hx
    rcases hx with hx | hx
    · exact flat_fine (h s (by simp)) d x hx
    · exact flatL_fine (fun s hs => h s (by simp [hs])) x hx

/-- The text determines the statements. -/
theorem script_inj {ss ss' : List Ast.Stmt} (h : ∀ s ∈ ss, AllS (fun _ s => S s) [] s) (h' : ∀ s ∈ ss', AllS (fun _ s => S s) [] s)
    (hn : NoParts ss) (hn' : NoParts ss') (e : unlines (linesL funcLine' 0 ss) = unlines (linesL funcLine' 0 ss')) :
    plainL ss = plainL ss' := by
  have ok : ∀ {l : List Ast.Stmt}, (∀ s ∈ l, AllS (fun _ s => S s) [] s) → ∀ s ∈ l, LinesOK s := by
    intro l h s hs
    refine lines_flat (ctx := []) ?_
    have := h s hs
    clear hs
    generalize ([] : List Kind) = c at this ⊢
    induction this with
    | mk ctx s h1 _ ih => exact .mk _ _ h1.parts ih
  rw [(linesL_rl (d := 0) (p := 0) (ok h) (noParts hn)).2, (linesL_rl (d := 0) (p := 0) (ok h') (noParts hn')).2] at e
  have e1 := rl_inj 0 _ _ (flatL_fine h) (flatL_fine h') e
  exact (rdLs (d := 0) (p := 0) ss ss' [] [] (fun s hs => rdS (h s hs)) h' (noParts hn) (noParts hn') (fun _ _ h => by cases h)
    (fun _ _ h => by cases h) (by rw [e1])).1

end Viml.Readable
