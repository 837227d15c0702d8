/-
Reading S-expressions: the text of an S-expression determines it.  Used by C73.
-/
import Verif.Spec.Readable
import Verif.Spec.Sexp
import Verif.Lemmas.LeafRun

namespace Viml.Readable
open Viml Viml.Spec

/-- S-expressions with the parts of curly names kept apart. -/
inductive T
  | word (s : Str)
  | cat (ps : List T)
  | brace (x : T)
  | node (l : List T)

mutual

def T.text : T → Str
  | .word s => s
  | .cat ps => T.catText ps
  | .brace x => '{' :: x.text ++ ['}']
  | .node l => '(' :: T.texts l ++ [')']

def T.texts : List T → Str
  | [] => []
  | [x] => x.text
  | x :: y :: l => x.text ++ ' ' :: T.texts (y :: l)

def T.catText : List T → Str
  | [] => []
  | x :: l => x.text ++ T.catText l

end

/-- Characters that end a word. -/
def plainc (c : Char) : Bool := !(c == ' ' || c == '(' || c == ')' || c == '{' || c == '}' || c == '\'' || c == '"' || c == '@')

/-- Words. -/
inductive Word : Str → Prop
  | plain {s : Str} : s ≠ [] → (∀ c ∈ s, plainc c = true) → (∀ t, s = '<' :: t → s.length ≤ 5) → Word s
  | str {s : Str} : StringLit s → Word s
  | reg (c : Char) : Word ['@', c]

/-- `<SID>` in upper or lower case. -/
def Sid (v : Str) : Prop := equalci v ['<', 'S', 'I', 'D', '>'] = true

mutual

/-- Well-formed S-expressions. -/
inductive WF : T → Prop
  | word {s : Str} : Word s → WF (.word s)
  | cat {ps : List T} : Parts ps → WF (.cat ps)
  | sid {v : Str} {ps : List T} : Sid v → Parts' ps → ps ≠ [] → WF (.cat (.word v :: ps))
  | node {l : List T} : (∀ x ∈ l, WF x) → WF (.node l)

/-- Parts of a name: at least one in braces. -/
inductive Parts : List T → Prop
  | brace {x : T} {ps : List T} : WF x → Parts' ps → Parts (.brace x :: ps)
  | text {v : Str} {x : T} {ps : List T} : Many1 isnamec v → WF x → Parts' ps → Parts (.word v :: .brace x :: ps)

/-- Parts of a name. -/
inductive Parts' : List T → Prop
  | nil : Parts' []
  | one {v : Str} : Many1 isnamec v → Parts' [.word v]
  | more {ps : List T} : Parts ps → Parts' ps

end

/-- What can follow an S-expression. -/
def Stop (r : Str) : Prop := r = [] ∨ ∃ c t, r = c :: t ∧ (c = ' ' ∨ c = ')' ∨ c = '}')

/-! ### Runs of characters -/

/-- The first run of characters with `f` is determined, if what follows is none. -/
theorem run_eq {f : Char → Bool} : ∀ (a b r r' : Str), (∀ c ∈ a, f c = true) → (∀ c ∈ b, f c = true) →
    (∀ c t, r = c :: t → f c = false) → (∀ c t, r' = c :: t → f c = false) → a ++ r = b ++ r' → a = b ∧ r = r'
  | [], [], _, _, _, _, _, _, h => ⟨rfl, h⟩
  | [], b :: bs, r, _, _, hb, hr, _, h => by
    have := hr b (bs ++ _) h
    rw [hb b (by simp)] at this
    cases this
  | a :: as, [], _, r', ha, _, _, hr', h => by
    have := hr' a (as ++ _) h.symm
    rw [ha a (by simp)] at this
    cases this
  | a :: as, b :: bs, r, r', ha, hb, hr, hr', h => by
    simp only [List.cons_append, List.cons.injEq] at h
    obtain ⟨h1, h2⟩ := run_eq as bs r r' (fun c hc => ha c (by simp [hc])) (fun c hc => hb c (by simp [hc])) hr hr' h.2
    exact ⟨by rw [h.1, h1], h2⟩

theorem stop_plain {r : Str} (h : Stop r) : ∀ c t, r = c :: t → plainc c = false := by
  intro c t e
  rcases h with h | ⟨c', t', h, h'⟩
  · rw [h] at e; cases e
  · rw [h] at e; cases e
    rcases h' with rfl | rfl | rfl <;> rfl

theorem namec_plain {c : Char} (h : isnamec c = true) : plainc c = true := by
  unfold plainc
  cases h1 : (c == ' ' || c == '(' || c == ')' || c == '{' || c == '}' || c == '\'' || c == '"' || c == '@')
  · rfl
  · exfalso
    simp only [Bool.or_eq_true, beq_iff_eq] at h1
    rcases h1 with ((((((rfl | rfl) | rfl) | rfl) | rfl) | rfl) | rfl) | rfl <;> exact absurd h (by decide)

theorem namec_of_not_plain {c : Char} (h : plainc c = false) : isnamec c = false := by
  cases h1 : isnamec c
  · rfl
  · rw [namec_plain h1] at h; cases h

/-! ### Strings -/

/-- The end of a double-quoted string, character by character. -/
inductive DTail : Str → Prop
  | nil : DTail []
  | char {s : Str} {c : Char} : c ≠ '"' → c ≠ '\\' → DTail s → DTail (c :: s)
  | esc {s : Str} {c : Char} : DTail s → DTail ('\\' :: c :: s)

inductive STail : Str → Prop
  | nil : STail []
  | char {s : Str} {c : Char} : c ≠ '\'' → STail s → STail (c :: s)
  | quote {s : Str} : STail s → STail ('\'' :: '\'' :: s)

theorem DTail.append {a b : Str} (ha : DTail a) (hb : DTail b) : DTail (a ++ b) := by
  induction ha with
  | nil => exact hb
  | char h1 h2 _ ih => exact .char h1 h2 ih
  | esc _ ih => exact .esc ih

theorem STail.append {a b : Str} (ha : STail a) (hb : STail b) : STail (a ++ b) := by
  induction ha with
  | nil => exact hb
  | char h1 _ ih => exact .char h1 ih
  | quote _ ih => exact .quote ih

theorem DTail.of {s : Str} (h : DBody s) : DTail s := by
  induction h with
  | nil => exact .nil
  | char _ h1 h2 ih => exact ih.append (.char h1 h2 .nil)
  | esc _ ih => exact ih.append (.esc .nil)

theorem STail.of {s : Str} (h : SBody s) : STail s := by
  induction h with
  | nil => exact .nil
  | char _ h1 ih => exact ih.append (.char h1 .nil)
  | quote _ ih => exact ih.append (.quote .nil)

theorem DTail.unique {a : Str} (ha : DTail a) : ∀ {b : Str}, DTail b → ∀ {r r' : Str},
    a ++ '"' :: r = b ++ '"' :: r' → a = b ∧ r = r' := by
  induction ha with
  | nil =>
    intro b hb r r' h
    cases hb with
    | nil => exact ⟨rfl, (List.cons.inj h).2⟩
    | char h1 => exact absurd (List.cons.inj h).1.symm h1
    | esc => exact absurd (List.cons.inj h).1 (by decide)
  | char h1 h2 _ ih =>
    intro b hb r r' h
    cases hb with
    | nil => exact absurd (List.cons.inj h).1 h1
    | char h3 h4 hb =>
      obtain ⟨e, h⟩ := List.cons.inj h
      obtain ⟨e1, e2⟩ := ih hb h
      exact ⟨by rw [e, e1], e2⟩
    | esc => exact absurd (List.cons.inj h).1 h2
  | esc _ ih =>
    intro b hb r r' h
    cases hb with
    | nil => exact absurd (List.cons.inj h).1 (by decide)
    | char h3 h4 hb => exact absurd (List.cons.inj h).1.symm h4
    | esc hb =>
      obtain ⟨e, h⟩ := List.cons.inj (List.cons.inj h).2
      obtain ⟨e1, e2⟩ := ih hb h
      exact ⟨by rw [e, e1], e2⟩

/-- What follows a single-quoted string is not a quote. -/
def NoQ (r : Str) : Prop := ∀ c t, r = c :: t → c ≠ '\''

theorem STail.unique {a : Str} (ha : STail a) : ∀ {b : Str}, STail b → ∀ {r r' : Str}, NoQ r → NoQ r' →
    a ++ '\'' :: r = b ++ '\'' :: r' → a = b ∧ r = r' := by
  induction ha with
  | nil =>
    intro b hb r r' n n' h
    cases hb with
    | nil => exact ⟨rfl, (List.cons.inj h).2⟩
    | char h1 => exact absurd (List.cons.inj h).1.symm h1
    | quote => exact absurd rfl (n _ _ (List.cons.inj h).2)
  | char h1 _ ih =>
    intro b hb r r' n n' h
    cases hb with
    | nil => exact absurd (List.cons.inj h).1 h1
    | char h3 hb =>
      obtain ⟨e, h⟩ := List.cons.inj h
      obtain ⟨e1, e2⟩ := ih hb n n' h
      exact ⟨by rw [e, e1], e2⟩
    | quote => exact absurd (List.cons.inj h).1 h1
  | quote _ ih =>
    intro b hb r r' n n' h
    cases hb with
    | nil => exact absurd rfl (n' _ _ (List.cons.inj h).2.symm)
    | char h3 hb => exact absurd (List.cons.inj h).1.symm h3
    | quote hb =>
      obtain ⟨_, h⟩ := List.cons.inj (List.cons.inj h).2
      obtain ⟨e1, e2⟩ := ih hb n n' h
      exact ⟨by rw [e1], e2⟩

theorem Stop.noQ {r : Str} (h : Stop r) : NoQ r := by
  intro c t e
  rcases h with h | ⟨c', t', h, h'⟩
  · rw [h] at e; cases e
  · rw [h] at e; cases e
    rcases h' with rfl | rfl | rfl <;> decide

/-! ### Words -/

/-- First characters of words. -/
theorem Word.head {s : Str} (h : Word s) : ∃ c t, s = c :: t ∧ c ≠ ' ' ∧ c ≠ '(' ∧ c ≠ ')' ∧ c ≠ '{' ∧ c ≠ '}' := by
  cases h with
  | plain h1 h2 _ =>
    cases s with
    | nil => exact absurd rfl h1
    | cons c t =>
      have := h2 c (by simp)
      refine ⟨c, t, rfl, ?_, ?_, ?_, ?_, ?_⟩ <;> rintro rfl <;> exact absurd this (by decide)
  | str h =>
    rcases h with ⟨s, _, rfl⟩ | ⟨s, _, rfl⟩
    · exact ⟨'"', _, rfl, by decide, by decide, by decide, by decide, by decide⟩
    · exact ⟨'\'', _, rfl, by decide, by decide, by decide, by decide, by decide⟩
  | reg c => exact ⟨'@', _, rfl, by decide, by decide, by decide, by decide, by decide⟩

theorem Word.unique {s s' r r' : Str} (h : Word s) (h' : Word s') (hr : Stop r) (hr' : Stop r') (e : s ++ r = s' ++ r') :
    s = s' ∧ r = r' := by
  have key : ∀ {s s' r r' : Str}, s ≠ [] → (∀ c ∈ s, plainc c = true) → (∃ c t, s' = c :: t ∧ plainc c = false) →
      s ++ r = s' ++ r' → False := by
    intro s s' r r' h1 h2 h3 e
    obtain ⟨c, t, rfl, hc⟩ := h3
    cases s with
    | nil => exact h1 rfl
    | cons d s =>
      have := h2 d (by simp)
      rw [(List.cons.inj e).1, hc] at this
      cases this
  have hs : ∀ {s : Str}, StringLit s → ∃ c t, s = c :: t ∧ plainc c = false := by
    rintro s (⟨s, _, rfl⟩ | ⟨s, _, rfl⟩)
    · exact ⟨'"', _, rfl, rfl⟩
    · exact ⟨'\'', _, rfl, rfl⟩
  cases h with
  | plain h1 h2 _ =>
    cases h' with
    | plain h1' h2' _ => exact run_eq (f := plainc) s s' r r' h2 h2' (stop_plain hr) (stop_plain hr') e
    | str h' => exact (key h1 h2 (hs h') e).elim
    | reg c => exact (key h1 h2 ⟨'@', _, rfl, rfl⟩ e).elim
  | str h =>
    cases h' with
    | plain h1' h2' _ => exact (key h1' h2' (hs h) e.symm).elim
    | str h' =>
      rcases h with ⟨a, ha, rfl⟩ | ⟨a, ha, rfl⟩ <;> rcases h' with ⟨b, hb, rfl⟩ | ⟨b, hb, rfl⟩
      · obtain ⟨e1, e2⟩ := DTail.unique (.of ha) (.of hb) (r := r) (r' := r') (by simpa using e)
        exact ⟨by rw [e1], e2⟩
      · exact absurd (List.cons.inj e).1 (by decide)
      · exact absurd (List.cons.inj e).1 (by decide)
      · obtain ⟨e1, e2⟩ := STail.unique (.of ha) (.of hb) hr.noQ hr'.noQ (by simpa using e)
        exact ⟨by rw [e1], e2⟩
    | reg c =>
      rcases h with ⟨a, ha, rfl⟩ | ⟨a, ha, rfl⟩ <;> exact absurd (List.cons.inj e).1 (by decide)
  | reg c =>
    cases h' with
    | plain h1' h2' _ => exact (key h1' h2' ⟨'@', _, rfl, rfl⟩ e.symm).elim
    | str h' => rcases h' with ⟨a, ha, rfl⟩ | ⟨a, ha, rfl⟩ <;> exact absurd (List.cons.inj e).1 (by decide)
    | reg d =>
      simp only [List.cons_append, List.nil_append, List.cons.injEq, true_and] at e
      exact ⟨by rw [e.1], e.2⟩

theorem Sid.spec {v : Str} (h : Sid v) : v.length = 5 ∧ (∀ c ∈ v, plainc c = true) ∧ ∃ t, v = '<' :: t := by
  simp only [Sid, equalci, beq_iff_eq] at h
  refine ⟨?_, ?_, ?_⟩
  · have := congrArg List.length h
    simpa using this
  · intro c hc
    have h1 : lowerC c ∈ v.map lowerC := List.mem_map_of_mem hc
    rw [h] at h1
    have h2 : lowerC c ∈ ['<', 's', 'i', 'd', '>'] := h1
    cases h3 : plainc c
    · exfalso
      simp only [plainc, Bool.not_eq_false', Bool.or_eq_true, beq_iff_eq] at h3
      rcases h3 with ((((((rfl | rfl) | rfl) | rfl) | rfl) | rfl) | rfl) | rfl <;> exact absurd h2 (by decide)
    · rfl
  · cases v with
    | nil => cases h
    | cons c v =>
      simp only [List.map_cons, List.cons.injEq] at h
      exact ⟨v, by rw [lowerC_lt h.1]⟩

/-! ### Heads -/

theorem Parts.head {ps : List T} (h : Parts ps) (r : Str) :
    ∃ c t, T.catText ps ++ r = c :: t ∧ (c = '{' ∨ isnamec c = true) := by
  cases h with
  | brace h1 h2 => exact ⟨'{', _, by simp [T.catText, T.text]; rfl, .inl rfl⟩
  | @text v x ps h1 h2 h3 =>
    cases v with
    | nil => exact absurd rfl h1.1
    | cons c v => exact ⟨c, _, by simp [T.catText, T.text]; rfl, .inr (h1.2 c (by simp))⟩

theorem Parts'.head {ps : List T} (h : Parts' ps) (hn : ps ≠ []) (r : Str) :
    ∃ c t, T.catText ps ++ r = c :: t ∧ (c = '{' ∨ isnamec c = true) := by
  cases h with
  | nil => exact absurd rfl hn
  | @one v h1 =>
    cases v with
    | nil => exact absurd rfl h1.1
    | cons c v => exact ⟨c, _, by simp [T.catText, T.text]; rfl, .inr (h1.2 c (by simp))⟩
  | more h => exact h.head r

/-- First characters of S-expressions. -/
theorem WF.head {x : T} (h : WF x) : ∃ c t, x.text = c :: t ∧ c ≠ ' ' ∧ c ≠ ')' ∧ c ≠ '}' := by
  cases h with
  | word h =>
    obtain ⟨c, t, h1, h2, _, h3, _, h4⟩ := h.head
    exact ⟨c, t, h1, h2, h3, h4⟩
  | cat h =>
    obtain ⟨c, t, h1, h2⟩ := h.head []
    refine ⟨c, t, by simpa [T.text] using h1, ?_, ?_, ?_⟩ <;> rintro rfl <;> exact absurd h2 (by decide)
  | sid h _ _ =>
    obtain ⟨t, rfl⟩ := h.spec.2.2
    exact ⟨'<', _, by simp [T.text, T.catText]; rfl, by decide, by decide, by decide⟩
  | node h => exact ⟨'(', _, by simp [T.text]; rfl, by decide, by decide, by decide⟩

theorem Stop.not {r : Str} (h : Stop r) {c : Char} {t : Str} (e : r = c :: t) (h1 : c ≠ ' ') (h2 : c ≠ ')') (h3 : c ≠ '}') :
    False := by
  rcases h with h | ⟨c', t', h, h'⟩
  · rw [h] at e; cases e
  · rw [h] at e; cases e
    rcases h' with h' | h' | h'
    · exact h1 h'
    · exact h2 h'
    · exact h3 h'

theorem Stop.not_part {r : Str} (h : Stop r) {c : Char} {t : Str} (e : r = c :: t) (h1 : c = '{' ∨ isnamec c = true) :
    False := by
  refine h.not e ?_ ?_ ?_ <;> rintro rfl <;> exact absurd h1 (by decide)

theorem Stop.namec {r : Str} (h : Stop r) : ∀ c t, r = c :: t → isnamec c = false :=
  fun c t e => namec_of_not_plain (stop_plain h c t e)

/-! ### Parts of names -/

/-- The text of `x` determines `x` and what follows. -/
def Rd (x : T) : Prop := ∀ {y : T}, WF y → ∀ {r r' : Str}, Stop r → Stop r' → x.text ++ r = y.text ++ r' → x = y ∧ r = r'

/-- The same of the parts of a name. -/
def RdP (ps : List T) : Prop := ∀ {ps' : List T}, Parts' ps' → ∀ {r r' : Str}, Stop r → Stop r' →
  T.catText ps ++ r = T.catText ps' ++ r' → ps = ps' ∧ r = r'

theorem rdP_nil : RdP [] := by
  intro ps' h r r' hr hr' e
  by_cases hn : ps' = []
  · subst hn; exact ⟨rfl, e⟩
  · obtain ⟨c, t, h1, h2⟩ := h.head hn r'
    simp only [T.catText, List.nil_append] at e
    exact (hr.not_part (e.trans h1) h2).elim

/-- A list that starts with a brace. -/
theorem rd_brace {x : T} {ps : List T} (hx : Rd x) (hp : RdP ps) : ∀ {y : T} {ps' : List T}, WF y → Parts' ps' →
    ∀ {r r' : Str}, Stop r → Stop r' →
    (T.brace x).text ++ (T.catText ps ++ r) = (T.brace y).text ++ (T.catText ps' ++ r') → x = y ∧ ps = ps' ∧ r = r' := by
  intro y ps' hy hps r r' hr hr' e
  simp only [T.text, List.cons_append, List.append_assoc, List.cons.injEq, true_and, List.nil_append] at e
  obtain ⟨e1, e2⟩ := hx hy (.inr ⟨'}', _, rfl, by simp⟩) (.inr ⟨'}', _, rfl, by simp⟩) e
  obtain ⟨e3, e4⟩ := hp hps hr hr' (List.cons.inj e2).2
  exact ⟨e1, e3, e4⟩

theorem catText_cons (x : T) (l : List T) (r : Str) : T.catText (x :: l) ++ r = x.text ++ (T.catText l ++ r) := by
  simp [T.catText]

theorem namec_head {v : Str} (h : Many1 isnamec v) {r r' : Str} (e : v ++ r = '{' :: r') : False := by
  cases v with
  | nil => exact h.1 rfl
  | cons c v =>
    have := h.2 c (by simp)
    rw [(List.cons.inj e).1] at this
    exact absurd this (by decide)

theorem brace_text (x : T) (r : Str) : ∃ t, (T.brace x).text ++ r = '{' :: t := ⟨_, by simp [T.text]; rfl⟩

/-- The run of a name before a brace or the end. -/
theorem brace_run (x : T) (r : Str) : ∀ c t, (T.brace x).text ++ r = c :: t → isnamec c = false := by
  intro c t e
  obtain ⟨u, h⟩ := brace_text x r
  rw [h] at e
  cases e
  decide

theorem rdP_one {v : Str} (hv : Many1 isnamec v) : RdP [.word v] := by
  intro ps' h r r' hr hr' e
  rw [catText_cons] at e
  simp only [T.text, T.catText, List.nil_append] at e
  have hnil : ∀ {q : Str}, v ++ r = q → Stop q → False := by
    intro q e hq
    cases v with
    | nil => exact hv.1 rfl
    | cons c v => exact hq.not_part e.symm (.inr (hv.2 c (by simp)))
  cases h with
  | nil => exact (hnil e (by simpa [T.catText] using hr')).elim
  | one h1 =>
    rw [catText_cons] at e
    simp only [T.text, T.catText, List.nil_append] at e
    obtain ⟨e1, e2⟩ := run_eq _ _ _ _ hv.2 h1.2 hr.namec hr'.namec e
    exact ⟨by rw [e1], e2⟩
  | more h =>
    cases h with
    | @brace x ps h1 h2 =>
      rw [catText_cons] at e
      obtain ⟨u, hu⟩ := brace_text x (T.catText ps ++ r')
      rw [hu] at e
      exact (namec_head hv e).elim
    | @text v' x ps h1 h2 h3 =>
      rw [catText_cons, catText_cons] at e
      obtain ⟨_, e2⟩ := run_eq _ _ _ _ hv.2 h1.2 hr.namec (brace_run x _) e
      obtain ⟨u, hu⟩ := brace_text x (T.catText ps ++ r')
      rw [hu] at e2
      exact (hr.not_part e2 (.inl rfl)).elim

theorem rdP_brace {x : T} {ps : List T} (hx : Rd x) (hp : RdP ps) : RdP (.brace x :: ps) := by
  intro ps' h r r' hr hr' e
  rw [catText_cons] at e
  cases h with
  | nil =>
    obtain ⟨u, hu⟩ := brace_text x (T.catText ps ++ r)
    rw [hu] at e
    exact (hr'.not_part (by simpa [T.catText] using e.symm) (.inl rfl)).elim
  | one h1 =>
    obtain ⟨u, hu⟩ := brace_text x (T.catText ps ++ r)
    rw [hu, catText_cons] at e
    exact (namec_head h1 e.symm).elim
  | more h =>
    cases h with
    | @brace y ps' h1 h2 =>
      rw [catText_cons] at e
      obtain ⟨e1, e2, e3⟩ := rd_brace hx hp h1 h2 hr hr' e
      exact ⟨by rw [e1, e2], e3⟩
    | @text v' y ps' h1 h2 h3 =>
      obtain ⟨u, hu⟩ := brace_text x (T.catText ps ++ r)
      rw [hu, catText_cons] at e
      exact (namec_head h1 e.symm).elim

theorem rdP_text {v : Str} {x : T} {ps : List T} (hv : Many1 isnamec v) (hx : Rd x) (hp : RdP ps) :
    RdP (.word v :: .brace x :: ps) := by
  intro ps' h r r' hr hr' e
  rw [catText_cons, catText_cons] at e
  simp only [T.text.eq_1] at e
  cases h with
  | nil =>
    cases v with
    | nil => exact (hv.1 rfl).elim
    | cons c v => exact (hr'.not_part (by simpa [T.catText] using e.symm) (.inr (hv.2 c (by simp)))).elim
  | @one v' h1 =>
    rw [catText_cons] at e
    simp only [T.text.eq_1, T.catText, List.nil_append] at e
    obtain ⟨_, e2⟩ := run_eq _ _ _ _ hv.2 h1.2 (brace_run x _) hr'.namec e
    obtain ⟨u, hu⟩ := brace_text x (T.catText ps ++ r)
    rw [hu] at e2
    exact (hr'.not_part e2.symm (.inl rfl)).elim
  | more h =>
    cases h with
    | @brace y ps' h1 h2 =>
      rw [catText_cons] at e
      obtain ⟨u, hu⟩ := brace_text y (T.catText ps' ++ r')
      rw [hu] at e
      exact (namec_head hv e).elim
    | @text v' y ps' h1 h2 h3 =>
      rw [catText_cons, catText_cons] at e
      simp only [T.text.eq_1] at e
      obtain ⟨e1, e2⟩ := run_eq _ _ _ _ hv.2 h1.2 (brace_run x _) (brace_run y _) e
      obtain ⟨e3, e4, e5⟩ := rd_brace hx hp h2 h3 hr hr' e2
      exact ⟨by rw [e1, e3, e4], e5⟩

/-! ### Words are no names with braces -/

/-- A word is not the start of a run of characters of words, followed by a brace. -/
theorem word_brace {s v r u : Str} (h : Word s) (hr : Stop r) (hv : ∀ c ∈ v, plainc c = true) (e : s ++ r = v ++ '{' :: u) :
    False := by
  cases h with
  | plain h1 h2 _ =>
    obtain ⟨_, e2⟩ := run_eq (f := plainc) s v r _ h2 hv (stop_plain hr)
      (by intro c t e; cases e; decide) e
    exact hr.not e2 (by decide) (by decide) (by decide)
  | str h =>
    cases v with
    | nil => rcases h with ⟨a, _, rfl⟩ | ⟨a, _, rfl⟩ <;> exact absurd (List.cons.inj e).1 (by decide)
    | cons c v =>
      have := hv c (by simp)
      rcases h with ⟨a, _, rfl⟩ | ⟨a, _, rfl⟩ <;>
        rw [← (List.cons.inj e).1] at this <;> exact absurd this (by decide)
  | reg d =>
    cases v with
    | nil => exact absurd (List.cons.inj e).1 (by decide)
    | cons c v =>
      have := hv c (by simp)
      rw [← (List.cons.inj e).1] at this
      exact absurd this (by decide)

theorem word_parts {s r r' : Str} {ps : List T} (h : Word s) (hr : Stop r) {v : Str} (hv : ∀ c ∈ v, plainc c = true)
    (hp : Parts ps) (e : s ++ r = v ++ (T.catText ps ++ r')) : False := by
  cases hp with
  | @brace x ps h1 h2 =>
    obtain ⟨u, hu⟩ := brace_text x (T.catText ps ++ r')
    rw [catText_cons, hu] at e
    exact word_brace h hr hv e
  | @text v' x ps h1 h2 h3 =>
    obtain ⟨u, hu⟩ := brace_text x (T.catText ps ++ r')
    rw [catText_cons, catText_cons, hu, ← List.append_assoc] at e
    refine word_brace h hr ?_ e
    intro c hc
    rcases List.mem_append.1 hc with hc | hc
    · exact hv c hc
    · exact namec_plain (h1.2 c hc)

theorem word_sid {s r r' : Str} {v : Str} {ps : List T} (h : Word s) (hr : Stop r) (hr' : Stop r') (hv : Sid v) (hp : Parts' ps)
    (hn : ps ≠ []) (e : s ++ r = v ++ (T.catText ps ++ r')) : False := by
  cases hp with
  | nil => exact hn rfl
  | @one w h1 =>
    obtain ⟨l1, l2, t, l3⟩ := hv.spec
    rw [catText_cons, ← List.append_assoc] at e
    simp only [T.text, T.catText, List.nil_append] at e
    have hp : ∀ c ∈ v ++ w, plainc c = true := by
      intro c hc
      rcases List.mem_append.1 hc with hc | hc
      · exact l2 c hc
      · exact namec_plain (h1.2 c hc)
    cases h with
    | plain a1 a2 a3 =>
      obtain ⟨e1, _⟩ := run_eq (f := plainc) _ _ _ _ a2 hp (stop_plain hr) (stop_plain hr') e
      subst e1
      have := a3 (t ++ w) (by rw [l3]; rfl)
      rw [List.length_append, l1] at this
      have : w.length = 0 := by omega
      exact h1.1 (List.length_eq_zero_iff.1 this)
    | str h =>
      rw [l3] at e
      rcases h with ⟨a, _, rfl⟩ | ⟨a, _, rfl⟩ <;> exact absurd (List.cons.inj e).1 (by decide)
    | reg c => rw [l3] at e; exact absurd (List.cons.inj e).1 (by decide)
  | more hp => exact word_parts h hr hv.spec.2.1 hp e

/-! ### Lists -/

theorem texts_unique : ∀ {l : List T}, (∀ x ∈ l, WF x) → (∀ x ∈ l, Rd x) → ∀ {l' : List T}, (∀ y ∈ l', WF y) →
    ∀ {r r' : Str}, T.texts l ++ ')' :: r = T.texts l' ++ ')' :: r' → l = l' ∧ r = r'
  | [], _, _, [], _, r, r', e => by simpa [T.texts] using e
  | [], _, _, [y], h', r, r', e => by
    obtain ⟨c, t, h1, _, h3, _⟩ := (h' y (by simp)).head
    simp only [T.texts, h1, List.nil_append] at e
    exact absurd (List.cons.inj e).1.symm h3
  | [], _, _, y :: z :: l', h', r, r', e => by
    obtain ⟨c, t, h1, _, h3, _⟩ := (h' y (by simp)).head
    simp only [T.texts, h1, List.nil_append] at e
    exact absurd (List.cons.inj e).1.symm h3
  | [x], hw, _, [], _, r, r', e => by
    obtain ⟨c, t, h1, _, h3, _⟩ := (hw x (by simp)).head
    simp only [T.texts, h1, List.nil_append] at e
    exact absurd (List.cons.inj e).1 h3
  | x :: z :: l, hw, _, [], _, r, r', e => by
    obtain ⟨c, t, h1, _, h3, _⟩ := (hw x (by simp)).head
    simp only [T.texts, h1, List.nil_append] at e
    exact absurd (List.cons.inj e).1 h3
  | [x], hw, h, [y], h', r, r', e => by
    simp only [T.texts] at e
    obtain ⟨e1, e2⟩ := h x (by simp) (h' y (by simp)) (.inr ⟨')', _, rfl, by simp⟩) (.inr ⟨')', _, rfl, by simp⟩) e
    exact ⟨by rw [e1], (List.cons.inj e2).2⟩
  | [x], hw, h, y :: z :: l', h', r, r', e => by
    simp only [T.texts, List.append_assoc, List.cons_append] at e
    obtain ⟨e1, e2⟩ := h x (by simp) (h' y (by simp)) (.inr ⟨')', _, rfl, by simp⟩) (.inr ⟨' ', _, rfl, by simp⟩) e
    exact absurd (List.cons.inj e2).1 (by decide)
  | x :: z :: l, hw, h, [y], h', r, r', e => by
    simp only [T.texts, List.append_assoc, List.cons_append] at e
    obtain ⟨e1, e2⟩ := h x (by simp) (h' y (by simp)) (.inr ⟨' ', _, rfl, by simp⟩) (.inr ⟨')', _, rfl, by simp⟩) e
    exact absurd (List.cons.inj e2).1 (by decide)
  | x :: z :: l, hw, h, y :: z' :: l', h', r, r', e => by
    simp only [T.texts, List.append_assoc, List.cons_append] at e
    obtain ⟨e1, e2⟩ := h x (by simp) (h' y (by simp)) (.inr ⟨' ', _, rfl, by simp⟩) (.inr ⟨' ', _, rfl, by simp⟩) e
    obtain ⟨e3, e4⟩ := texts_unique (l := z :: l) (fun x hx => hw x (by simp [hx])) (fun x hx => h x (by simp [hx]))
      (l' := z' :: l') (fun x hx => h' x (by simp [hx])) (List.cons.inj e2).2
    exact ⟨by rw [e1, e3], e4⟩

/-! ### S-expressions -/

theorem parts_sid {r r' v : Str} {ps ps' : List T} (hp : Parts ps) (hv : Sid v)
    (e : T.catText ps ++ r = T.catText (.word v :: ps') ++ r') : False := by
  obtain ⟨c, t, h1, h2⟩ := hp.head r
  obtain ⟨u, rfl⟩ := hv.spec.2.2
  rw [h1, catText_cons] at e
  rw [(List.cons.inj e).1] at h2
  exact absurd h2 (by decide)

theorem parts_node {r r' : Str} {ps l : List T} (hp : Parts ps) (e : T.catText ps ++ r = (T.node l).text ++ r') : False := by
  obtain ⟨c, t, h1, h2⟩ := hp.head r
  rw [h1, T.text] at e
  rw [(List.cons.inj e).1] at h2
  exact absurd h2 (by decide)

theorem sid_node {r r' v : Str} {ps l : List T} (hv : Sid v) (e : T.catText (.word v :: ps) ++ r = (T.node l).text ++ r') :
    False := by
  obtain ⟨u, rfl⟩ := hv.spec.2.2
  rw [catText_cons, T.text, T.text] at e
  exact absurd (List.cons.inj e).1 (by decide)

theorem word_node {r r' s : Str} {l : List T} (h : Word s) (e : s ++ r = (T.node l).text ++ r') : False := by
  obtain ⟨c, t, rfl, _, h1, _⟩ := h.head
  rw [T.text] at e
  exact h1 (List.cons.inj e).1

mutual

theorem read : ∀ {x : T}, WF x → Rd x
  | _, .word h => by
    intro hy r r' hr hr' e
    rw [T.text] at e
    cases hy with
    | word h' =>
      rw [T.text] at e
      obtain ⟨e1, e2⟩ := h.unique h' hr hr' e
      exact ⟨by rw [e1], e2⟩
    | cat h' => rw [T.text] at e; exact (word_parts h hr (v := []) (fun _ h => absurd h (by simp)) h' e).elim
    | sid h1 h2 h3 => rw [T.text, catText_cons, T.text] at e; exact (word_sid h hr hr' h1 h2 h3 e).elim
    | node h' => exact (word_node h e).elim
  | _, .cat h => by
    intro hy r r' hr hr' e
    rw [T.text] at e
    cases hy with
    | word h' => rw [T.text] at e; exact (word_parts h' hr' (v := []) (fun _ h => absurd h (by simp)) h e.symm).elim
    | cat h' =>
      rw [T.text] at e
      obtain ⟨e1, e2⟩ := readParts h (.more h') hr hr' e
      exact ⟨by rw [e1], e2⟩
    | sid h1 h2 h3 => rw [T.text] at e; exact (parts_sid h h1 e).elim
    | node h' => exact (parts_node h e).elim
  | _, .sid h1 h2 h3 => by
    intro hy r r' hr hr' e
    rw [T.text] at e
    cases hy with
    | word h' => rw [T.text, catText_cons, T.text] at e; exact (word_sid h' hr' hr h1 h2 h3 e.symm).elim
    | cat h' => rw [T.text] at e; exact (parts_sid h' h1 e.symm).elim
    | sid h1' h2' h3' =>
      rw [T.text, catText_cons, catText_cons, T.text, T.text] at e
      obtain ⟨e1, e2⟩ := List.append_inj e (by rw [h1.spec.1, h1'.spec.1])
      obtain ⟨e3, e4⟩ := readParts' h2 h2' hr hr' e2
      exact ⟨by rw [e1, e3], e4⟩
    | node h' => exact (sid_node h1 e).elim
  | _, .node h => by
    intro hy r r' hr hr' e
    cases hy with
    | word h' => exact (word_node h' (by rw [T.text] at e; exact e.symm)).elim
    | cat h' => exact (parts_node h' (by rw [e, T.text])).elim
    | sid h1 h2 h3 => exact (sid_node h1 (by rw [e, T.text])).elim
    | node h' =>
      simp only [T.text, List.cons_append, List.append_assoc, List.cons.injEq, true_and, List.nil_append] at e
      obtain ⟨e1, e2⟩ := texts_unique h (fun x hx => read (h x hx)) h' e
      exact ⟨by rw [e1], e2⟩

theorem readParts : ∀ {ps : List T}, Parts ps → RdP ps
  | _, .brace h1 h2 => rdP_brace (read h1) (readParts' h2)
  | _, .text h1 h2 h3 => rdP_text h1 (read h2) (readParts' h3)

theorem readParts' : ∀ {ps : List T}, Parts' ps → RdP ps
  | _, .nil => rdP_nil
  | _, .one h => rdP_one h
  | _, .more h => readParts h

end

/-- The text of an S-expression determines it. -/
theorem text_inj {x y : T} (hx : WF x) (hy : WF y) (e : x.text = y.text) : x = y :=
  (read hx hy (r := []) (r' := []) (.inl rfl) (.inl rfl) (by rw [e])).1

end Viml.Readable
