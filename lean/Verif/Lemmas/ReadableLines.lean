/-
The lines of statements: each line with its blanks, its text without closing parentheses, and the number of blocks
open after it; the text determines these.  Used by C74.
-/
import Verif.Lemmas.Readable
import Verif.Spec.Sexp

namespace Viml.Readable
open Viml Viml.Spec

/-- A line: blanks, text without the parentheses that close blocks, number of open blocks after it. -/
structure Ln where
  b : Nat
  h : Str
  D : Nat

/-- Blocks that stay open before a line with `b` blanks. -/
def upTo (b : Nat) : Nat := (b + 1) / 2

/-- Blocks that stay open after a line; `k` after the last one. -/
def nxt (k : Nat) : List Ln → Nat
  | [] => k
  | x :: _ => upTo x.b

/-- The lines as text. -/
def rl (k : Nat) : List Ln → List Str
  | [] => []
  | x :: xs => (List.replicate x.b ' ' ++ x.h ++ List.replicate (x.D - nxt k xs) ')') :: rl k xs

theorem nxt_append (k : Nat) (xs ys : List Ln) : nxt k (xs ++ ys) = nxt (nxt k ys) xs := by
  cases xs <;> rfl

theorem rl_append (k : Nat) : ∀ xs ys : List Ln, rl k (xs ++ ys) = rl (nxt k ys) xs ++ rl k ys
  | [], ys => rfl
  | x :: xs, ys => by simp only [List.cons_append, rl, nxt_append, rl_append k xs ys]

/-- Closing a block. -/
theorem close_rl (k : Nat) : ∀ xs : List Ln, (∀ x ∈ xs, k + 1 ≤ x.D) → close (rl (k + 1) xs) = rl k xs
  | [], _ => rfl
  | [x], h => by
    have := h x (by simp)
    simp only [rl, close, nxt, List.append_assoc]
    rw [show x.D - k = x.D - (k + 1) + 1 by omega, List.replicate_succ']
  | x :: y :: xs, h => by
    have ih := close_rl k (y :: xs) fun z hz => h z (by simp [hz])
    simp only [rl] at ih ⊢
    rw [close, ih]
    rfl

/-- The first line of a statement without blanks. -/
def head (d : Nat) : Ast.Stmt → Str
  | .function _ _ _ n ps da _ _ => cs!"(function (" ++ (sx n).text ++
    (if ps = [] then [] else indent d ++ cs!" " ++ indent d ++ words (sigWords ps da)) ++ indent d ++ cs!")"
  | .elseIf _ ea _ c => nameOf ea ++ cs!" " ++ (sx c).text
  | .else_ _ ea _ => nameOf ea
  | .catch_ _ ea _ p => nameOf ea ++ (if p = [] then [] else cs!" /" ++ p ++ cs!"/")
  | .finally_ _ ea _ => nameOf ea
  | s => firstLine s

/-- One for parts of blocks, which are written with one more blank. -/
def part (s : Ast.Stmt) : Nat := if isPart (kind s) then 1 else 0

def lnOf (d : Nat) (s : Ast.Stmt) : Ln := ⟨2 * d + part s, head d s, if kind s = .other then d else d + 1⟩

theorem part_le (s : Ast.Stmt) : part s ≤ 1 := by unfold part; split <;> omega

mutual

/-- The lines of a statement at level `d`. -/
def flat (d : Nat) : Ast.Stmt → List Ln
  | .function q ea b n ps da at_ e => lnOf d (.function q ea b n ps da at_ e) :: flatL (d + 1) b
  | .if_ q ea b c eis el e => lnOf d (.if_ q ea b c eis el e) :: (flatL (d + 1) b ++ (flatL d eis ++ flatO d el))
  | .elseIf q ea b c => lnOf d (.elseIf q ea b c) :: flatL (d + 1) b
  | .else_ q ea b => lnOf d (.else_ q ea b) :: flatL (d + 1) b
  | .while_ q ea b c e => lnOf d (.while_ q ea b c e) :: flatL (d + 1) b
  | .for_ q ea b l ls rest r e => lnOf d (.for_ q ea b l ls rest r e) :: flatL (d + 1) b
  | .try_ q ea b cs fi e => lnOf d (.try_ q ea b cs fi e) :: (flatL (d + 1) b ++ (flatL d cs ++ flatO d fi))
  | .catch_ q ea b p => lnOf d (.catch_ q ea b p) :: flatL (d + 1) b
  | .finally_ q ea b => lnOf d (.finally_ q ea b) :: flatL (d + 1) b
  | s => [lnOf d s]

def flatL (d : Nat) : List Ast.Stmt → List Ln
  | [] => []
  | s :: ss => flat d s ++ flatL d ss

def flatO (d : Nat) : Option Ast.Stmt → List Ln
  | none => []
  | some s => flat d s

end

theorem flat_cons (d : Nat) (s : Ast.Stmt) : ∃ t, flat d s = lnOf d s :: t := by
  cases s <;> exact ⟨_, rfl⟩

theorem nxt_flat (d k : Nat) (s : Ast.Stmt) (ys : List Ln) : nxt k (flat d s ++ ys) = d + part s := by
  obtain ⟨t, h⟩ := flat_cons d s
  have := part_le s
  rw [h, List.cons_append, nxt, upTo, lnOf]
  dsimp only
  omega

/-- The number of open blocks before the lines of a list of statements. -/
theorem nxt_flatL {d k p : Nat} {ss : List Ast.Stmt} (h : ∀ s ∈ ss, part s = p) (ys : List Ln)
    (hk : nxt k ys = d + p) : nxt k (flatL d ss ++ ys) = d + p := by
  cases ss with
  | nil => exact hk
  | cons s ss => rw [flatL, List.append_assoc, nxt_flat, h s (by simp)]

/-- What is shown of a statement. -/
def LinesOK (s : Ast.Stmt) : Prop := ∀ d, (∀ x ∈ flat d s, d + (if kind s = .other then 0 else 1) ≤ x.D) ∧
  lines funcLine' d s = rl (d + part s) (flat d s)

theorem linesL_rl {d p : Nat} : ∀ {ss : List Ast.Stmt}, (∀ s ∈ ss, LinesOK s) → (∀ s ∈ ss, part s = p) →
    (∀ x ∈ flatL d ss, d + p ≤ x.D) ∧ linesL funcLine' d ss = rl (d + p) (flatL d ss)
  | [], _, _ => ⟨fun _ h => absurd h (by simp [flatL]), rfl⟩
  | s :: ss, h, hp => by
    obtain ⟨h1, h2⟩ := h s (by simp) d
    obtain ⟨h3, h4⟩ := linesL_rl (d := d) (ss := ss) (fun s hs => h s (by simp [hs])) fun s hs => hp s (by simp [hs])
    have hps := hp s (by simp)
    refine ⟨?_, ?_⟩
    · intro x hx
      rw [flatL, List.mem_append] at hx
      rcases hx with hx | hx
      · have h5 := h1 x hx
        have : part s ≤ if kind s = .other then 0 else 1 := by
          unfold part
          cases kind s <;> simp [isPart]
        omega
      · exact h3 x hx
    · have h6 : nxt (d + p) (flatL d ss) = d + p := by
        have := nxt_flatL (d := d) (k := d + p) (fun s hs => hp s (List.mem_cons_of_mem _ hs)) [] rfl
        simpa using this
      rw [linesL, flatL, rl_append, h2, h4, h6, hps]

theorem noParts {l : List Ast.Stmt} (h : NoParts l) : ∀ s ∈ l, part s = 0 := fun s hs => by simp [part, h s hs]

theorem ofKind {l : List Ast.Stmt} {k : Kind} (hk : isPart k = true) (h : ∀ s ∈ l, kind s = k) : ∀ s ∈ l, part s = 1 :=
  fun s hs => by simp [part, h s hs, hk]

/-- A block with one body. -/
theorem body_rl {d : Nat} {b : List Ast.Stmt} (x : Ln) (hb : ∀ s ∈ b, LinesOK s) (hn : NoParts b) (hD : x.D = d + 1) :
    (∀ y ∈ x :: flatL (d + 1) b, d + 1 ≤ y.D) ∧
    (List.replicate x.b ' ' ++ x.h) :: linesL funcLine' (d + 1) b = rl (d + 1) (x :: flatL (d + 1) b) := by
  obtain ⟨h1, h2⟩ := linesL_rl (d := d + 1) (p := 0) hb (noParts hn)
  refine ⟨?_, ?_⟩
  · intro y hy
    rcases List.mem_cons.1 hy with rfl | hy
    · omega
    · exact h1 y hy
  · have h3 := nxt_flatL (d := d + 1) (k := d + 1) (noParts hn) [] rfl
    rw [List.append_nil] at h3
    rw [rl, h2, h3, hD]
    simp

/-- A block with parts. -/
theorem parts_rl {d : Nat} {b ps : List Ast.Stmt} (x : Ln) (hb : ∀ s ∈ b, LinesOK s) (hn : NoParts b) (hD : x.D = d + 1)
    (hp : ∀ s ∈ ps, LinesOK s) (hp' : ∀ s ∈ ps, part s = 1) :
    (∀ y ∈ x :: (flatL (d + 1) b ++ flatL d ps), d + 1 ≤ y.D) ∧
    (List.replicate x.b ' ' ++ x.h) :: (linesL funcLine' (d + 1) b ++ linesL funcLine' d ps) =
      rl (d + 1) (x :: (flatL (d + 1) b ++ flatL d ps)) := by
  obtain ⟨h1, h2⟩ := body_rl x hb hn hD
  obtain ⟨h3, h4⟩ := linesL_rl (d := d) hp hp'
  refine ⟨?_, ?_⟩
  · intro y hy
    rw [← List.cons_append, List.mem_append] at hy
    rcases hy with hy | hy
    · exact h1 y hy
    · exact h3 y hy
  · have h5 := nxt_flatL (d := d) (k := d + 1) hp' [] rfl
    rw [List.append_nil] at h5
    rw [← List.cons_append, ← List.cons_append, rl_append, h5, ← h2, h4]

theorem linesL_append (d : Nat) : ∀ a b : List Ast.Stmt, linesL funcLine' d (a ++ b) = linesL funcLine' d a ++ linesL funcLine' d b
  | [], b => rfl
  | s :: a, b => by simp only [List.cons_append, linesL, linesL_append d a b, List.append_assoc]

theorem flatL_append (d : Nat) : ∀ a b : List Ast.Stmt, flatL d (a ++ b) = flatL d a ++ flatL d b
  | [], b => rfl
  | s :: a, b => by simp only [List.cons_append, flatL, flatL_append d a b, List.append_assoc]

theorem linesO_list (d : Nat) (o : Option Ast.Stmt) : linesO funcLine' d o = linesL funcLine' d o.toList := by
  cases o <;> simp [linesO, linesL]

theorem flatO_list (d : Nat) (o : Option Ast.Stmt) : flatO d o = flatL d o.toList := by
  cases o <;> simp [flatO, flatL]

theorem indent_blanks (d : Nat) : indent d = List.replicate (2 * d) ' ' := rfl

theorem lines_flat {ctx : List Kind} {s : Ast.Stmt} (h : AllS (fun _ s => wellPlaced s) ctx s) : LinesOK s := by
  induction h with
  | mk ctx s h1 h0 ih =>
    clear h0
    cases s
    case function q ea b n ps da at_ e =>
      intro d
      obtain ⟨h2, h3⟩ := body_rl (d := d) (b := b) (lnOf d (.function q ea b n ps da at_ e)) ih h1 rfl
      refine ⟨h2, ?_⟩
      show lines funcLine' d _ = rl d _
      rw [flat, ← close_rl _ _ h2, lines]
      rw [← h3, funcLine']
      simp [lnOf, part, kind, isPart, head, indent_blanks]
    case while_ q ea b c e =>
      intro d
      obtain ⟨h2, h3⟩ := body_rl (d := d) (b := b) (lnOf d (.while_ q ea b c e)) ih h1 rfl
      refine ⟨h2, ?_⟩
      show lines funcLine' d _ = rl d _
      rw [flat, ← close_rl _ _ h2, lines]
      rw [← h3]
      rfl
    case for_ q ea b l ls rest r e =>
      intro d
      obtain ⟨h2, h3⟩ := body_rl (d := d) (b := b) (lnOf d (.for_ q ea b l ls rest r e)) ih h1 rfl
      refine ⟨h2, ?_⟩
      show lines funcLine' d _ = rl d _
      rw [flat, ← close_rl _ _ h2, lines]
      rw [← h3]
      rfl
    case if_ q ea b c eis el e =>
      intro d
      obtain ⟨k1, k2, k3⟩ := h1
      simp only [subStmts, List.append_assoc, List.mem_append] at ih
      obtain ⟨h2, h3⟩ := parts_rl (d := d) (ps := eis ++ el.toList) (lnOf d (.if_ q ea b c eis el e))
        (fun s hs => ih s (.inl hs)) k1 rfl (fun s hs => ih s (.inr (List.mem_append.1 hs))) (by
          intro s hs
          rcases List.mem_append.1 hs with hs | hs
          · simp [part, k2 s hs, isPart]
          · simp [part, k3 s (Option.mem_toList.1 hs), isPart])
      rw [flatL_append, ← flatO_list] at h2 h3
      rw [linesL_append, ← linesO_list] at h3
      refine ⟨h2, ?_⟩
      show lines funcLine' d _ = rl d _
      rw [flat, ← close_rl _ _ h2, lines, List.append_assoc]
      rw [← h3]
      rfl
    case try_ q ea b eis el e =>
      intro d
      obtain ⟨k1, k2, k3⟩ := h1
      simp only [subStmts, List.append_assoc, List.mem_append] at ih
      obtain ⟨h2, h3⟩ := parts_rl (d := d) (ps := eis ++ el.toList) (lnOf d (.try_ q ea b eis el e))
        (fun s hs => ih s (.inl hs)) k1 rfl (fun s hs => ih s (.inr (List.mem_append.1 hs))) (by
          intro s hs
          rcases List.mem_append.1 hs with hs | hs
          · simp [part, k2 s hs, isPart]
          · simp [part, k3 s (Option.mem_toList.1 hs), isPart])
      rw [flatL_append, ← flatO_list] at h2 h3
      rw [linesL_append, ← linesO_list] at h3
      refine ⟨h2, ?_⟩
      show lines funcLine' d _ = rl d _
      rw [flat, ← close_rl _ _ h2, lines, List.append_assoc]
      rw [← h3]
      rfl
    case elseIf q ea b c =>
      intro d
      obtain ⟨h2, h3⟩ := body_rl (d := d) (b := b) (lnOf d (.elseIf q ea b c)) ih h1 rfl
      refine ⟨h2, ?_⟩
      rw [flat, part]
      simp only [kind, isPart, if_true, lines]
      rw [← h3]
      simp [lnOf, part, kind, isPart, head, firstLine, indent_blanks, List.replicate_succ']
    case else_ q ea b =>
      intro d
      obtain ⟨h2, h3⟩ := body_rl (d := d) (b := b) (lnOf d (.else_ q ea b)) ih h1 rfl
      refine ⟨h2, ?_⟩
      rw [flat, part]
      simp only [kind, isPart, if_true, lines]
      rw [← h3]
      simp [lnOf, part, kind, isPart, head, firstLine, indent_blanks, List.replicate_succ']
    case catch_ q ea b p =>
      intro d
      obtain ⟨h2, h3⟩ := body_rl (d := d) (b := b) (lnOf d (.catch_ q ea b p)) ih h1 rfl
      refine ⟨h2, ?_⟩
      rw [flat, part]
      simp only [kind, isPart, if_true, lines]
      rw [← h3]
      simp [lnOf, part, kind, isPart, head, firstLine, indent_blanks, List.replicate_succ']
    case finally_ q ea b =>
      intro d
      obtain ⟨h2, h3⟩ := body_rl (d := d) (b := b) (lnOf d (.finally_ q ea b)) ih h1 rfl
      refine ⟨h2, ?_⟩
      rw [flat, part]
      simp only [kind, isPart, if_true, lines]
      rw [← h3]
      simp [lnOf, part, kind, isPart, head, firstLine, indent_blanks, List.replicate_succ']
    all_goals
      intro d
      refine ⟨fun x hx => ?_, ?_⟩
      · simp only [flat, List.mem_singleton] at hx
        subst hx
        simp [lnOf, kind]
      · simp [lines, flat, rl, nxt, lnOf, part, kind, isPart, head, indent_blanks]

/-! ### Reading lines -/

/-- The word after the first character. -/
def hw (t : Str) : Str := (t.drop 1).takeWhile isalpha

/-- The line opens a block. -/
def opn (t : Str) : Bool :=
  t.head? == some '(' && [cs!"if", cs!"while", cs!"for", cs!"try", cs!"function"].contains (hw t)

/-- What is used of a line: it does not start with a blank, the number of open blocks can be seen from it, and it is a
single line or a raw command. -/
structure Fine (x : Ln) : Prop where
  ne : ∃ c t, x.h = c :: t ∧ c ≠ ' '
  D : x.D = upTo x.b + if opn x.h then 1 else 0
  line : ('\n' ∉ x.h ∧ ¬ (x.h.head? = some '(' ∧ hw x.h = cs!"excmd")) ∨
    ∃ s, x.h = cs!"(excmd \"" ++ bs s ++ cs!"\")"

theorem takeWhile_stop {f : Char → Bool} : ∀ (l r : Str), (∀ c t, r = c :: t → f c = false) →
    (l ++ r).takeWhile f = l.takeWhile f
  | [], [], _ => rfl
  | [], c :: t, h => by simp [h c t rfl]
  | c :: l, r, h => by
    rw [List.cons_append, List.takeWhile_cons, List.takeWhile_cons, takeWhile_stop l r h]

theorem hw_append {t r : Str} (ht : ∃ c u, t = c :: u) (hr : ∀ c u, r = c :: u → isalpha c = false) : hw (t ++ r) = hw t := by
  obtain ⟨c, u, rfl⟩ := ht
  exact takeWhile_stop u r hr

theorem head_append {t r : Str} (ht : ∃ c u, t = c :: u) : (t ++ r).head? = t.head? := by
  obtain ⟨c, u, rfl⟩ := ht
  rfl

theorem opn_append {t r : Str} (ht : ∃ c u, t = c :: u) (hr : ∀ c u, r = c :: u → isalpha c = false) : opn (t ++ r) = opn t := by
  rw [opn, opn, hw_append ht hr, head_append ht]

/-- What follows the text of a line. -/
theorem after_line (n : Nat) (R : Str) : ∀ c u, List.replicate n ')' ++ '\n' :: R = c :: u → isalpha c = false := by
  intro c u h
  cases n with
  | zero => cases h; decide
  | succ n => rw [List.replicate_succ] at h; cases h; decide

theorem bs_cons (c : Char) (s : Str) : bs (c :: s) = (if c = '\\' ∨ c = '"' then ['\\', c] else [c]) ++ bs s := by
  simp [bs]

theorem bs_unique : ∀ (s s' r r' : Str), bs s ++ '"' :: r = bs s' ++ '"' :: r' → s = s' ∧ r = r'
  | [], [], r, r', h => by simpa [bs] using h
  | [], c :: s', r, r', h => by
    rw [bs_cons] at h
    split at h
    · exact absurd (List.cons.inj h).1 (by decide)
    · rename_i hc
      have := (List.cons.inj h).1
      exact absurd (.inr this.symm) hc
  | c :: s, [], r, r', h => by
    rw [bs_cons] at h
    split at h
    · exact absurd (List.cons.inj h).1 (by decide)
    · rename_i hc
      have := (List.cons.inj h).1
      exact absurd (.inr this) hc
  | c :: s, c' :: s', r, r', h => by
    rw [bs_cons, bs_cons, List.append_assoc, List.append_assoc] at h
    have : c = c' ∧ bs s ++ '"' :: r = bs s' ++ '"' :: r' := by
      split at h <;> rename_i h1 <;> split at h <;> rename_i h2
      · simpa using h
      · have := (List.cons.inj h).1
        exact absurd (.inl this.symm) h2
      · have := (List.cons.inj h).1
        exact absurd (.inl this) h1
      · simpa using h
    obtain ⟨h3, h4⟩ := bs_unique s s' r r' this.2
    exact ⟨by rw [this.1, h3], h4⟩

theorem unlines_rl (k : Nat) (x : Ln) (xs : List Ln) : unlines (rl k (x :: xs)) =
    List.replicate x.b ' ' ++ (x.h ++ (List.replicate (x.D - nxt k xs) ')' ++ '\n' :: unlines (rl k xs))) := by
  simp [unlines, rl]

theorem excmd_head (s : Str) : (cs!"(excmd \"" ++ bs s ++ cs!"\")").head? = some '(' ∧
    hw (cs!"(excmd \"" ++ bs s ++ cs!"\")") = cs!"excmd" := ⟨rfl, rfl⟩

/-- The text determines the lines. -/
theorem rl_inj (k : Nat) : ∀ xs ys : List Ln, (∀ x ∈ xs, Fine x) → (∀ y ∈ ys, Fine y) →
    unlines (rl k xs) = unlines (rl k ys) → xs = ys
  | [], [], _, _, _ => rfl
  | [], y :: ys, _, _, h => by
    rw [unlines_rl] at h
    have := congrArg List.length h
    simp [unlines, rl] at this
  | x :: xs, [], _, _, h => by
    rw [unlines_rl] at h
    have := congrArg List.length h
    simp [unlines, rl] at this
  | x :: xs, y :: ys, hx, hy, h => by
    rw [unlines_rl, unlines_rl] at h
    obtain ⟨x1, x2, x3⟩ := hx x (by simp)
    obtain ⟨y1, y2, y3⟩ := hy y (by simp)
    have hb : ∀ {z : Ln}, (∃ c t, z.h = c :: t ∧ c ≠ ' ') → ∀ R c t, z.h ++ R = c :: t → (c == ' ') = false := by
      rintro z ⟨c, t, h1, h2⟩ R c' t' h3
      rw [h1] at h3
      cases h3
      simpa using h2
    obtain ⟨h1, h2⟩ := run_eq (f := (· == ' ')) _ _ _ _ (fun c hc => by simp [List.eq_of_mem_replicate hc])
      (fun c hc => by simp [List.eq_of_mem_replicate hc]) (hb x1 _) (hb y1 _) h
    have hbb : x.b = y.b := by simpa using congrArg List.length h1
    have xn : ∃ c u, x.h = c :: u := by obtain ⟨c, t, h, _⟩ := x1; exact ⟨c, t, h⟩
    have yn : ∃ c u, y.h = c :: u := by obtain ⟨c, t, h, _⟩ := y1; exact ⟨c, t, h⟩
    have ho : opn x.h = opn y.h := by
      rw [← opn_append xn (after_line _ _), h2, opn_append yn (after_line _ _)]
    have hw' : hw x.h = hw y.h := by
      rw [← hw_append xn (after_line _ _), h2, hw_append yn (after_line _ _)]
    have hh : x.h.head? = y.h.head? := by rw [← head_append xn, h2, head_append yn]
    have hD : x.D = y.D := by rw [x2, y2, hbb, ho]
    have fin : x.h = y.h → unlines (rl k xs) = unlines (rl k ys) → x :: xs = y :: ys := by
      intro e1 e2
      rw [rl_inj k xs ys (fun x h => hx x (by simp [h])) (fun y h => hy y (by simp [h])) e2]
      cases x; cases y
      simp_all
    rcases x3 with ⟨x3, x4⟩ | ⟨s, x3⟩
    · rcases y3 with ⟨y3, y4⟩ | ⟨s', y3⟩
      · rw [← List.append_assoc, ← List.append_assoc] at h2
        have nl : ∀ (z : Str) n, '\n' ∉ z → ∀ c ∈ z ++ List.replicate n ')', (c != '\n') = true := by
          intro z n hz c hc
          rcases List.mem_append.1 hc with hc | hc
          · simp only [bne_iff_ne]
            rintro rfl
            exact hz hc
          · simp [List.eq_of_mem_replicate hc]
        have nl' : ∀ (R : Str) c t, '\n' :: R = c :: t → (c != '\n') = false := by
          intro R c t h
          cases h
          rfl
        obtain ⟨h3, h4⟩ := run_eq (f := (· != '\n')) _ _ _ _ (nl _ _ x3) (nl _ _ y3) (nl' _) (nl' _) h2
        have h5 := (List.cons.inj h4).2
        have h6 := rl_inj k xs ys (fun x h => hx x (by simp [h])) (fun y h => hy y (by simp [h])) h5
        refine fin ?_ h5
        rw [h6, hD] at h3
        exact List.append_cancel_right h3
      · rw [y3] at hh hw'
        exact absurd ⟨hh.trans (excmd_head s').1, hw'.trans (excmd_head s').2⟩ x4
    · rcases y3 with ⟨y3, y4⟩ | ⟨s', y3⟩
      · rw [x3] at hh hw'
        exact absurd ⟨hh.symm.trans (excmd_head s).1, hw'.symm.trans (excmd_head s).2⟩ y4
      · rw [x3, y3] at h2
        simp only [List.append_assoc, List.cons_append, List.nil_append, List.cons.injEq, true_and] at h2
        obtain ⟨rfl, h4⟩ := bs_unique _ _ _ _ h2
        have h5 := (List.cons.inj h4).2
        have nl : ∀ n, ∀ c ∈ List.replicate n ')', (c == ')') = true := fun n c hc => by
          simp [List.eq_of_mem_replicate hc]
        have nl' : ∀ (R : Str) c t, '\n' :: R = c :: t → (c == ')') = false := by
          intro R c t h
          cases h
          rfl
        obtain ⟨_, h6⟩ := run_eq (f := (· == ')')) _ _ _ _ (nl _) (nl _) (nl' _) (nl' _) h5
        exact fin (by rw [x3, y3]) (List.cons.inj h6).2

end Viml.Readable
