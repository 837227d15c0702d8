/-
A JSON text has one value only.
-/
import Verif.Spec.Json
import Verif.Props.Text

namespace Viml
open Spec

/-! ### Strings -/

theorem hex4_unique {m n : Nat} {a b c d : Char} (h : Hex4 m a b c d) (h' : Hex4 n a b c d) : m = n := by
  obtain ⟨w, x, y, z, h1, h2, h3, h4, h5⟩ := h
  obtain ⟨w', x', y', z', g1, g2, g3, g4, g5⟩ := h'
  rw [h1] at g1; rw [h2] at g2; rw [h3] at g3; rw [h4] at g4
  cases g1; cases g2; cases g3; cases g4
  omega

theorem char_notSurrogate (c : Char) : ¬ (0xD800 ≤ c.toNat ∧ c.toNat < 0xE000) := by
  have := c.valid
  rw [UInt32.isValidChar, Nat.isValidChar] at this
  intro ⟨h1, h2⟩
  simp only [Char.toNat] at h1 h2
  omega

theorem char_ext {c d : Char} (h : c.toNat = d.toNat) : c = d := by
  rw [← Char.ofNat_toNat c, h, Char.ofNat_toNat]

theorem jchar_unique {c c' : Char} {t t' r r' : Str} (h : JChar c t) (h' : JChar c' t') (e : t ++ r = t' ++ r') :
    c = c' ∧ t = t' := by
  have hu : ∀ c, shortEscape 'u' ≠ some c := by intro c h; cases h
  cases h with
  | plain h1 h2 h3 =>
    cases h' with
    | plain => cases e; exact ⟨rfl, rfl⟩
    | short => cases e; exact absurd rfl h3
    | hex => cases e; exact absurd rfl h3
    | pair => cases e; exact absurd rfl h3
  | short h1 =>
    cases h' with
    | plain g1 g2 g3 => cases e; exact absurd rfl g3
    | short g1 => cases e; rw [h1] at g1; cases g1; exact ⟨rfl, rfl⟩
    | hex => cases e; exact absurd h1 (hu _)
    | pair => cases e; exact absurd h1 (hu _)
  | hex h1 =>
    cases h' with
    | plain g1 g2 g3 => cases e; exact absurd rfl g3
    | short g1 => cases e; exact absurd g1 (hu _)
    | hex g1 => cases e; exact ⟨char_ext (hex4_unique h1 g1), rfl⟩
    | pair g1 g2 g3 g4 =>
      cases e
      have := hex4_unique h1 g1
      exact absurd ⟨by omega, by omega⟩ (char_notSurrogate c)
  | pair h1 h2 h3 h4 h5 h6 h7 =>
    cases h' with
    | plain g1 g2 g3 => cases e; exact absurd rfl g3
    | short g1 => cases e; exact absurd g1 (hu _)
    | hex g1 =>
      cases e
      have := hex4_unique h1 g1
      exact absurd ⟨by omega, by omega⟩ (char_notSurrogate c')
    | pair g1 g2 g3 g4 g5 g6 g7 =>
      cases e
      have e1 := hex4_unique h1 g1
      have e2 := hex4_unique h2 g2
      subst e1; subst e2
      exact ⟨char_ext (by rw [h7, g7]), rfl⟩

theorem jchar_head {c : Char} {t : Str} (h : JChar c t) : ∃ x s, t = x :: s ∧ x ≠ '"' := by
  cases h with
  | plain h1 h2 h3 => exact ⟨_, _, rfl, h2⟩
  | short => exact ⟨_, _, rfl, by decide⟩
  | hex => exact ⟨_, _, rfl, by decide⟩
  | pair => exact ⟨_, _, rfl, by decide⟩

theorem jchars_unique {v v' b b' r r' : Str} (h : JChars v b) (h' : JChars v' b')
    (e : b ++ '"' :: r = b' ++ '"' :: r') : v = v' ∧ b = b' ∧ r = r' := by
  induction h generalizing v' b' with
  | nil =>
    cases h' with
    | nil => cases e; exact ⟨rfl, rfl, rfl⟩
    | cons g1 g2 =>
      obtain ⟨x, s, rfl, hx⟩ := jchar_head g1
      cases e; exact absurd rfl hx
  | cons h1 h2 ih =>
    cases h' with
    | nil =>
      obtain ⟨x, s, rfl, hx⟩ := jchar_head h1
      cases e; exact absurd rfl hx
    | cons g1 g2 =>
      rw [List.append_assoc, List.append_assoc] at e
      obtain ⟨rfl, rfl⟩ := jchar_unique h1 g1 e
      obtain ⟨rfl, rfl, rfl⟩ := ih g2 (List.append_cancel_left e)
      exact ⟨rfl, rfl, rfl⟩

theorem jstring_unique {v v' s s' r r' : Str} (h : JString v s) (h' : JString v' s') (e : s ++ r = s' ++ r') :
    v = v' ∧ s = s' ∧ r = r' := by
  obtain ⟨b, h1, rfl⟩ := h
  obtain ⟨b', h1', rfl⟩ := h'
  simp only [List.cons_append, List.append_assoc, List.nil_append, List.cons.injEq, true_and] at e
  obtain ⟨rfl, rfl, rfl⟩ := jchars_unique h1 h1' e
  exact ⟨rfl, rfl, rfl⟩

/-! ### White space and numbers -/

/-- `s` starts with something other than white space. -/
def Tight (s : Str) : Prop := ∃ c t, s = c :: t ∧ ¬ (c = ' ' ∨ c = '\t' ∨ c = '\n' ∨ c = '\r')

theorem white_split {a a' x x' : Str} (h : JWhite a) (h' : JWhite a') (hx : Tight x) (hx' : Tight x')
    (e : a ++ x = a' ++ x') : a = a' ∧ x = x' := by
  induction a generalizing a' with
  | nil =>
    cases a' with
    | nil => exact ⟨rfl, e⟩
    | cons c a' =>
      obtain ⟨y, t, rfl, hy⟩ := hx
      cases e
      exact absurd (h' _ (List.mem_cons_self ..)) hy
  | cons c a ih =>
    cases a' with
    | nil =>
      obtain ⟨y, t, rfl, hy⟩ := hx'
      cases e
      exact absurd (h _ (List.mem_cons_self ..)) hy
    | cons c' a' =>
      simp only [List.cons_append, List.cons.injEq] at e
      obtain ⟨rfl, e⟩ := e
      obtain ⟨rfl, rfl⟩ := ih (fun c hc => h c (List.mem_cons_of_mem _ hc))
        (fun c hc => h' c (List.mem_cons_of_mem _ hc)) e
      exact ⟨rfl, rfl⟩

/-- `s` does not start with a digit. -/
def NoDigit (s : Str) : Prop := ∀ c t, s = c :: t → isdigit c = false

theorem noDigit_white {b x : Str} (h : JWhite b) (hx : NoDigit x) : NoDigit (b ++ x) := by
  cases b with
  | nil => exact hx
  | cons c b =>
    intro c' t e
    cases e
    rcases h c (List.mem_cons_self ..) with rfl | rfl | rfl | rfl <;> rfl

theorem digits_unique {a b x y : Str} (ha : ∀ c ∈ a, isdigit c = true) (hb : ∀ c ∈ b, isdigit c = true)
    (hx : NoDigit x) (hy : NoDigit y) (e : a ++ x = b ++ y) : a = b ∧ x = y := by
  induction a generalizing b with
  | nil =>
    cases b with
    | nil => exact ⟨rfl, e⟩
    | cons c b =>
      have h1 := hx c _ e
      rw [hb c (List.mem_cons_self ..)] at h1; cases h1
  | cons c a ih =>
    cases b with
    | nil =>
      have h1 := hy c _ e.symm
      rw [ha c (List.mem_cons_self ..)] at h1; cases h1
    | cons d b =>
      simp only [List.cons_append, List.cons.injEq] at e
      obtain ⟨rfl, e⟩ := e
      obtain ⟨rfl, rfl⟩ := ih (fun c hc => ha c (List.mem_cons_of_mem _ hc))
        (fun c hc => hb c (List.mem_cons_of_mem _ hc)) e
      exact ⟨rfl, rfl⟩

/-! ### Values -/

/-- What the first character of a text tells about its value. -/
def lead (c : Char) : Nat :=
  if c = 'n' then 0 else if c = 't' then 1 else if c = 'f' then 2 else if isdigit c then 3 else if c = '"' then 4
  else if c = '[' then 5 else if c = '{' then 6 else 7

def kind : Json → Nat
  | .null => 0
  | .bool true => 1
  | .bool false => 2
  | .num _ => 3
  | .str _ => 4
  | .arr _ => 5
  | .obj _ => 6

theorem isdigit_lead {c : Char} (h : isdigit c = true) : lead c = 3 := by
  unfold lead
  rw [if_neg (by rintro rfl; cases h), if_neg (by rintro rfl; cases h), if_neg (by rintro rfl; cases h), if_pos h]

theorem text_lead {v : Json} {s : Str} (h : JText v s) : ∃ c t, s = c :: t ∧ lead c = kind v := by
  cases v with
  | null => rw [JText] at h; exact ⟨_, _, h, rfl⟩
  | bool b => cases b <;> (rw [JText] at h; exact ⟨_, _, h, rfl⟩)
  | num n =>
    rw [JText] at h
    obtain ⟨h1, h2, _⟩ := h
    cases s with
    | nil => exact absurd rfl h1
    | cons c t => exact ⟨c, t, rfl, isdigit_lead (h2 c (List.mem_cons_self ..))⟩
  | str v => rw [JText] at h; obtain ⟨b, _, h⟩ := h; exact ⟨_, _, h, rfl⟩
  | arr l => rw [JText] at h; obtain ⟨b, _, h⟩ := h; exact ⟨_, _, h, rfl⟩
  | obj l => rw [JText] at h; obtain ⟨b, _, h⟩ := h; exact ⟨_, _, h, rfl⟩

theorem kind_lt (v : Json) : kind v < 7 := by
  cases v with
  | bool b => cases b <;> (unfold kind; decide)
  | _ => simp only [kind]; decide

theorem tight_text {v : Json} {s : Str} (h : JText v s) (x : Str) : Tight (s ++ x) := by
  obtain ⟨c, t, rfl, hc⟩ := text_lead h
  refine ⟨c, t ++ x, rfl, fun hw => ?_⟩
  have := kind_lt v
  rcases hw with rfl | rfl | rfl | rfl <;> (change 7 = _ at hc; omega)

theorem text_not {v : Json} {s x y : Str} {c : Char} (h : JText v s) (hc : lead c = 7) : s ++ x ≠ c :: y := by
  obtain ⟨d, t, rfl, hd⟩ := text_lead h
  intro e
  cases e
  have := kind_lt v
  omega

theorem tight_cons {c : Char} (h : ¬ (c = ' ' ∨ c = '\t' ∨ c = '\n' ∨ c = '\r')) (t : Str) : Tight (c :: t) :=
  ⟨c, t, rfl, h⟩

/-- What follows the first item of an array. -/
def ItemsRest : List Json → Str → Prop
  | [], s => s = []
  | v :: vs, s => ∃ u, s = ',' :: u ∧ JItems (v :: vs) u

theorem items_cons {v : Json} {vs : List Json} {s : Str} (h : JItems (v :: vs) s) :
    ∃ a t b u, JWhite a ∧ JText v t ∧ JWhite b ∧ ItemsRest vs u ∧ s = a ++ (t ++ (b ++ u)) := by
  cases vs with
  | nil =>
    rw [JItems] at h
    obtain ⟨a, t, b, h1, h2, h3, h4⟩ := h
    exact ⟨a, t, b, [], h1, h2, h3, rfl, by rw [List.append_nil]; exact h4⟩
  | cons w vs =>
    rw [JItems] at h
    obtain ⟨a, t, b, u, h1, h2, h3, h4, h5⟩ := h
    exact ⟨a, t, b, _, h1, h2, h3, ⟨u, rfl, h4⟩, h5⟩

/-- What follows the first member of an object. -/
def MembersRest : List (Str × Json) → Str → Prop
  | [], s => s = []
  | v :: vs, s => ∃ u, s = ',' :: u ∧ JMembers (v :: vs) u

theorem members_cons {k : Str} {v : Json} {vs : List (Str × Json)} {s : Str} (h : JMembers ((k, v) :: vs) s) :
    ∃ a t b, JWhite a ∧ JString k t ∧ JWhite b ∧ ∃ a' t' b' u, JWhite a' ∧ JText v t' ∧ JWhite b' ∧ MembersRest vs u ∧
      s = a ++ (t ++ (b ++ ':' :: (a' ++ (t' ++ (b' ++ u))))) := by
  cases vs with
  | nil =>
    rw [JMembers] at h
    obtain ⟨a, t, b, h1, h2, h3, a', t', b', h4, h5, h6, h7⟩ := h
    exact ⟨a, t, b, h1, h2, h3, a', t', b', [], h4, h5, h6, rfl, by rw [List.append_nil]; exact h7⟩
  | cons w vs =>
    rw [JMembers] at h
    obtain ⟨a, t, b, h1, h2, h3, a', t', b', u, h4, h5, h6, h7, h8⟩ := h
    exact ⟨a, t, b, h1, h2, h3, a', t', b', _, h4, h5, h6, ⟨u, rfl, h7⟩, h8⟩

theorem rest_ok {l : List Json} {u : Str} (h : ItemsRest l u) (r : Str) :
    Tight (u ++ ']' :: r) ∧ NoDigit (u ++ ']' :: r) := by
  cases l with
  | nil => cases h; exact ⟨tight_cons (by decide) _, fun c t e => by cases e; rfl⟩
  | cons v l => obtain ⟨u, rfl, _⟩ := h; exact ⟨tight_cons (by decide) _, fun c t e => by cases e; rfl⟩

theorem mrest_ok {l : List (Str × Json)} {u : Str} (h : MembersRest l u) (r : Str) :
    Tight (u ++ '}' :: r) ∧ NoDigit (u ++ '}' :: r) := by
  cases l with
  | nil => cases h; exact ⟨tight_cons (by decide) _, fun c t e => by cases e; rfl⟩
  | cons v l => obtain ⟨u, rfl, _⟩ := h; exact ⟨tight_cons (by decide) _, fun c t e => by cases e; rfl⟩

theorem tight_string {k t : Str} (h : JString k t) (x : Str) : Tight (t ++ x) := by
  obtain ⟨b, _, rfl⟩ := h
  exact tight_cons (by decide) _

mutual
theorem text_unique : ∀ (v v' : Json) (s s' r r' : Str), JText v s → JText v' s' → NoDigit r → NoDigit r' →
    s ++ r = s' ++ r' → v = v' ∧ s = s' ∧ r = r'
  | v, v', s, s', r, r', h, h', hr, hr', e => by
    have hk : kind v = kind v' := by
      obtain ⟨c, t, hs, hc⟩ := text_lead h
      obtain ⟨c', t', hs', hc'⟩ := text_lead h'
      rw [hs, hs'] at e
      simp only [List.cons_append, List.cons.injEq] at e
      rw [← hc, ← hc', e.1]
    match v, v', hk, h, h' with
    | .null, .null, _, h, h' =>
      rw [JText] at h h'; subst h; subst h'
      exact ⟨rfl, rfl, List.append_cancel_left e⟩
    | .bool true, .bool true, _, h, h' =>
      rw [JText] at h h'; subst h; subst h'
      exact ⟨rfl, rfl, List.append_cancel_left e⟩
    | .bool false, .bool false, _, h, h' =>
      rw [JText] at h h'; subst h; subst h'
      exact ⟨rfl, rfl, List.append_cancel_left e⟩
    | .num m, .num n, _, h, h' =>
      rw [JText] at h h'
      obtain ⟨_, h1, h2, _⟩ := h
      obtain ⟨_, g1, g2, _⟩ := h'
      obtain ⟨rfl, rfl⟩ := digits_unique h1 g1 hr hr' e
      exact ⟨by rw [← h2, ← g2], rfl, rfl⟩
    | .str a, .str b, _, h, h' =>
      rw [JText] at h h'
      obtain ⟨rfl, rfl, rfl⟩ := jstring_unique h h' e
      exact ⟨rfl, rfl, rfl⟩
    | .arr l, .arr l', _, h, h' =>
      rw [JText] at h h'
      obtain ⟨b, h1, rfl⟩ := h
      obtain ⟨b', h1', rfl⟩ := h'
      simp only [List.cons_append, List.append_assoc, List.nil_append, List.cons.injEq, true_and] at e
      obtain ⟨rfl, rfl, rfl⟩ := items_unique l l' b b' r r' h1 h1' e
      exact ⟨rfl, rfl, rfl⟩
    | .obj l, .obj l', _, h, h' =>
      rw [JText] at h h'
      obtain ⟨b, h1, rfl⟩ := h
      obtain ⟨b', h1', rfl⟩ := h'
      simp only [List.cons_append, List.append_assoc, List.nil_append, List.cons.injEq, true_and] at e
      obtain ⟨rfl, rfl, rfl⟩ := members_unique l l' b b' r r' h1 h1' e
      exact ⟨rfl, rfl, rfl⟩
theorem items_unique : ∀ (l l' : List Json) (s s' r r' : Str), JItems l s → JItems l' s' →
    s ++ ']' :: r = s' ++ ']' :: r' → l = l' ∧ s = s' ∧ r = r'
  | [], [], s, s', r, r', h, h', e => by
    rw [JItems] at h h'
    obtain ⟨rfl, e1⟩ := white_split h h' (tight_cons (by decide) _) (tight_cons (by decide) _) e
    cases e1; exact ⟨rfl, rfl, rfl⟩
  | [], v :: vs, s, s', r, r', h, h', e => by
    rw [JItems] at h
    obtain ⟨a, t, b, u, h1, h2, h3, h4, rfl⟩ := items_cons h'
    simp only [List.append_assoc] at e
    obtain ⟨_, e1⟩ := white_split h h1 (tight_cons (by decide) _) (tight_text h2 _) e
    exact absurd e1.symm (text_not h2 rfl)
  | v :: vs, [], s, s', r, r', h, h', e => by
    rw [JItems] at h'
    obtain ⟨a, t, b, u, h1, h2, h3, h4, rfl⟩ := items_cons h
    simp only [List.append_assoc] at e
    obtain ⟨_, e1⟩ := white_split h1 h' (tight_text h2 _) (tight_cons (by decide) _) e
    exact absurd e1 (text_not h2 rfl)
  | v :: vs, v' :: vs', s, s', r, r', h, h', e => by
    obtain ⟨a, t, b, u, h1, h2, h3, h4, rfl⟩ := items_cons h
    obtain ⟨a', t', b', u', g1, g2, g3, g4, rfl⟩ := items_cons h'
    simp only [List.append_assoc] at e
    obtain ⟨rfl, e1⟩ := white_split h1 g1 (tight_text h2 _) (tight_text g2 _) e
    obtain ⟨rfl, rfl, e2⟩ := text_unique v v' t t' _ _ h2 g2 (noDigit_white h3 (rest_ok h4 r).2)
      (noDigit_white g3 (rest_ok g4 r').2) e1
    obtain ⟨rfl, e3⟩ := white_split h3 g3 (rest_ok h4 r).1 (rest_ok g4 r').1 e2
    match vs, vs', h4, g4 with
    | [], [], k, k' => cases k; cases k'; cases e3; exact ⟨rfl, rfl, rfl⟩
    | [], _ :: _, k, k' => cases k; obtain ⟨_, rfl, _⟩ := k'; cases e3
    | _ :: _, [], k, k' => cases k'; obtain ⟨_, rfl, _⟩ := k; cases e3
    | w :: ws, w' :: ws', k, k' =>
      obtain ⟨u, rfl, k⟩ := k
      obtain ⟨u', rfl, k'⟩ := k'
      simp only [List.cons_append, List.cons.injEq, true_and] at e3
      obtain ⟨he, rfl, rfl⟩ := items_unique (w :: ws) (w' :: ws') _ _ _ _ k k' e3
      exact ⟨by rw [he], rfl, rfl⟩
theorem members_unique : ∀ (l l' : List (Str × Json)) (s s' r r' : Str), JMembers l s → JMembers l' s' →
    s ++ '}' :: r = s' ++ '}' :: r' → l = l' ∧ s = s' ∧ r = r'
  | [], [], s, s', r, r', h, h', e => by
    rw [JMembers] at h h'
    obtain ⟨rfl, e1⟩ := white_split h h' (tight_cons (by decide) _) (tight_cons (by decide) _) e
    cases e1; exact ⟨rfl, rfl, rfl⟩
  | [], (k, v) :: vs, s, s', r, r', h, h', e => by
    rw [JMembers] at h
    obtain ⟨a, t, b, h1, h2, h3, a', t', b', u, h4, h5, h6, h7, rfl⟩ := members_cons h'
    simp only [List.append_assoc] at e
    obtain ⟨_, e1⟩ := white_split h h1 (tight_cons (by decide) _) (tight_string h2 _) e
    obtain ⟨c, _, rfl⟩ := h2
    cases e1
  | (k, v) :: vs, [], s, s', r, r', h, h', e => by
    rw [JMembers] at h'
    obtain ⟨a, t, b, h1, h2, h3, a', t', b', u, h4, h5, h6, h7, rfl⟩ := members_cons h
    simp only [List.append_assoc] at e
    obtain ⟨_, e1⟩ := white_split h1 h' (tight_string h2 _) (tight_cons (by decide) _) e
    obtain ⟨c, _, rfl⟩ := h2
    cases e1
  | (k, v) :: vs, (k', v') :: vs', s, s', r, r', h, h', e => by
    obtain ⟨a, t, b, h1, h2, h3, a1, t1, b1, u, h4, h5, h6, h7, rfl⟩ := members_cons h
    obtain ⟨a', t', b', g1, g2, g3, a1', t1', b1', u', g4, g5, g6, g7, rfl⟩ := members_cons h'
    simp only [List.append_assoc, List.cons_append] at e
    obtain ⟨rfl, e1⟩ := white_split h1 g1 (tight_string h2 _) (tight_string g2 _) e
    obtain ⟨rfl, rfl, e2⟩ := jstring_unique h2 g2 e1
    obtain ⟨rfl, e3⟩ := white_split h3 g3 (tight_cons (by decide) _) (tight_cons (by decide) _) e2
    simp only [List.cons.injEq, true_and] at e3
    obtain ⟨rfl, e4⟩ := white_split h4 g4 (tight_text h5 _) (tight_text g5 _) e3
    obtain ⟨rfl, rfl, e5⟩ := text_unique v v' t1 t1' _ _ h5 g5 (noDigit_white h6 (mrest_ok h7 r).2)
      (noDigit_white g6 (mrest_ok g7 r').2) e4
    obtain ⟨rfl, e6⟩ := white_split h6 g6 (mrest_ok h7 r).1 (mrest_ok g7 r').1 e5
    match vs, vs', h7, g7 with
    | [], [], k, k' => cases k; cases k'; cases e6; exact ⟨rfl, rfl, rfl⟩
    | [], _ :: _, k, k' => cases k; obtain ⟨_, rfl, _⟩ := k'; cases e6
    | _ :: _, [], k, k' => cases k'; obtain ⟨_, rfl, _⟩ := k; cases e6
    | w :: ws, w' :: ws', k, k' =>
      obtain ⟨u, rfl, k⟩ := k
      obtain ⟨u', rfl, k'⟩ := k'
      simp only [List.cons_append, List.cons.injEq, true_and] at e6
      obtain ⟨he, rfl, rfl⟩ := members_unique (w :: ws) (w' :: ws') _ _ _ _ k k' e6
      exact ⟨by rw [he], rfl, rfl⟩
end

end Viml
