/-
C69: an expression means the same inside a larger one.
-/
import Verif.Lemmas.PhraseIn
import Verif.Props.Grammar
import Verif.Props.Expr

namespace Viml
open Spec

namespace Props
variable {l l1 l2 l3 f x : Str} {e e1 e2 e3 : Ast.Expr} {op : Tok}

/-- C69.  If the whole line `l` is an expression with the tree `e`, this is what `ParseExpr` returns for the line. -/
theorem C69_value (h : Phrase l e) : parseExprLines [l] = some ⟨some e, none⟩ := by
  obtain ⟨r', _, _, h, _⟩ := h
  exact (C51_lines _ _).2 ⟨r', h⟩

/-- C69.  A line is an expression in at most one way. -/
theorem C69_unique (h1 : Phrase l e1) (h2 : Phrase l e2) : e1 = e2 := by
  have := (C69_value h1).symm.trans (C69_value h2)
  injection this with this
  injection this with this
  injection this

/-- C69.  If `ParseExpr` returns `e` for the line `l`, the parser has read a part `u` of the line; all of `l` is an expression
exactly if only white space follows. -/
theorem C69_covers (h : parseExprLines [l] = some ⟨some e, none⟩) :
    ∃ u v, l = u ++ v ∧ Gram (mkEnv [l]) [] 1 (mkEnv [l]).buf e (lineAt u v) ∧ ((∀ c ∈ v, iswhite c = true) ↔ Phrase l e) := by
  obtain ⟨r', h⟩ := (C51_lines _ _).1 h
  obtain ⟨v, hv, _⟩ := (C51_inside [l] [] _ (List.suffix_refl _) e r').2 h
  obtain ⟨u, _, hu⟩ := C41_expr _ _ _ _ (List.suffix_refl _) hv
  rw [cut_buf] at hu
  obtain ⟨v, e1, rfl⟩ := reads_cut hu
  rw [List.nil_append] at h
  have hr := cut_reads v u []
  rw [List.append_nil] at hr
  refine ⟨u, v, e1, h, fun hv => ⟨_, v, _, h, hr, hv, rfl⟩, ?_⟩
  rintro ⟨r', w, c, h1, h2, h3, h4⟩
  obtain ⟨_, rfl⟩ := C51_unambiguous _ _ _ _ (List.suffix_refl _) _ _ _ _ h1 h
  obtain ⟨v', rfl, e2⟩ := reads_cut h2
  cases v' with
  | nil => simpa using h3
  | cons a v' =>
    injection e2 with e2
    rw [e2] at h4
    cases h4

/-- C69.  White space in front of an expression only moves it. -/
theorem C69_lead {w : Str} (hw : ∀ c ∈ w, iswhite c = true) (h : Phrase l e) : Phrase (w ++ l) (e.onPos (moveTo [] (bytes w))) := by
  obtain ⟨r', w', h1, h2, h3⟩ := h.last (env := mkEnv [w ++ l]) (fn := []) w
  refine ⟨r', w', _, ?_, h2, h3, rfl⟩
  rw [cut_buf]
  have := cut_reads w [] l
  exact gram_lead h1 ⟨w, this, hw⟩

/-- C69.  Parentheses. -/
theorem C69_paren (h : Phrase l e) (hp : Plain l) : Phrase (cs!"(" ++ l ++ cs!")") (.paren (posAt [] 0) (e.onPos (moveTo [] 1))) :=
  phrase_paren h hp

/-- C69.  A unary operator in front of parentheses. -/
theorem C69_unary (h : Phrase l e) (hp : Plain l) (ho : op = .NOT ∨ op = .MINUS ∨ op = .PLUS) :
    Phrase (op.str ++ cs!"(" ++ l ++ cs!")") (.unary (posAt [] 0) op (.paren (posAt [] 1) (e.onPos (moveTo [] 2)))) :=
  phrase_unary h hp ho

/-- C69.  A binary operator between parentheses: all operators. -/
theorem C69_binary (h1 : Phrase l1 e1) (hp1 : Plain l1) (h2 : Phrase l2 e2) (hp2 : Plain l2) (ho : 2 ≤ opLevel op) :
    Phrase (cs!"(" ++ l1 ++ cs!") " ++ op.str ++ cs!" (" ++ l2 ++ cs!")")
      (.binary (.paren (posAt [] 0) (e1.onPos (moveTo [] 1))) (posAt [] (bytes l1 + 3)) op
        (.paren (posAt [] (bytes l1 + bytes op.str + 4)) (e2.onPos (moveTo [] (bytes l1 + bytes op.str + 5))))) :=
  phrase_binary h1 hp1 h2 hp2 ho

/-- C69.  The conditional operator: only the condition needs parentheses. -/
theorem C69_ternary (h1 : Phrase l1 e1) (hp1 : Plain l1) (h2 : Phrase l2 e2) (hp2 : Plain l2) (h3 : Phrase l3 e3) :
    Phrase (cs!"(" ++ l1 ++ cs!") ? " ++ l2 ++ cs!" : " ++ l3)
      (.ternary (posAt [] (bytes l1 + 3)) (.paren (posAt [] 0) (e1.onPos (moveTo [] 1)))
        (e2.onPos (moveTo [] (bytes l1 + 5))) (e3.onPos (moveTo [] (bytes l1 + bytes l2 + 8)))) :=
  phrase_ternary h1 hp1 h2 hp2 h3

/-- C69.  Lists of any length. -/
theorem C69_list {xs : List (Str × Ast.Expr)} (h : ∀ x ∈ xs, Phrase x.1 x.2 ∧ Plain x.1) :
    Phrase (cs!"[" ++ commas xs ++ cs!"]") (.list (posAt [] 0) (movedAll [] 1 xs)) := phrase_list h

/-- C69.  Calls with up to 20 arguments. -/
theorem C69_call {xs : List (Str × Ast.Expr)} (hf : PlainName f) (h : ∀ x ∈ xs, Phrase x.1 x.2 ∧ Plain x.1) (hn : xs.length ≤ 20) :
    Phrase (f ++ cs!"(" ++ commas xs ++ cs!")")
      (.call (.ident ⟨posAt [] 0, f⟩) (posAt [] (bytes f)) (movedAll [] (bytes f + 1) xs)) := phrase_call hf h hn

/-- C69.  Subscripts. -/
theorem C69_index (h1 : Phrase l1 e1) (hp1 : Plain l1) (h2 : Phrase l2 e2) (hp2 : Plain l2) :
    Phrase (cs!"(" ++ l1 ++ cs!")[" ++ l2 ++ cs!"]") (.subscript (posAt [] (bytes l1 + 2))
      (.paren (posAt [] 0) (e1.onPos (moveTo [] 1))) (e2.onPos (moveTo [] (bytes l1 + 3)))) := phrase_index h1 hp1 h2 hp2

/-- C69.  Dictionaries of any length, with string literals as keys. -/
theorem C69_dict {xs : List (Str × Str × Ast.Expr)} (h : ∀ x ∈ xs, '\'' ∉ x.1 ∧ Phrase x.2.1 x.2.2 ∧ Plain x.2.1) :
    Phrase (cs!"{" ++ entries xs ++ cs!"}") (.dict (posAt [] 0) (movedEntries [] 1 xs)) := phrase_dict h

/-- C69.  The body of a lambda with one parameter. -/
theorem C69_lambda (hx : isargname x = true) (hw : x ≠ cs!"is" ∧ x ≠ cs!"isnot") (h : Phrase l e) (hp : Plain l) :
    Phrase (cs!"{" ++ x ++ cs!" -> " ++ l ++ cs!"}")
      (.lambda (posAt [] 0) [⟨posAt [] 1, x⟩] (e.onPos (moveTo [] (bytes x + 5)))) := phrase_lambda hx hw h hp

/-- A line that ends with a bracket can be put anywhere. -/
theorem C69_plain {c : Char} (hc : c = ')' ∨ c = ']' ∨ c = '}') (h : l.getLast? = some c) : Plain l := by
  refine ⟨by rw [h]; rcases hc with rfl | rfl | rfl <;> simp, ?_⟩
  rintro u t rfl ⟨z, s, rfl, hz, hs, hn⟩
  have hm : c ∈ s ∨ c = z := by
    rw [List.getLast?_append] at h
    simp only [List.getLast?_cons_cons] at h
    cases s with
    | nil => simp at hn
    | cons a s =>
      have h : (a :: s).getLast? = some c := by simpa using h
      exact .inl (List.mem_of_getLast? h)
  rcases hm with hm | rfl
  · have := hs c hm
    rcases hc with rfl | rfl | rfl <;> revert this <;> decide
  · rcases hc with rfl | rfl | rfl <;> revert hz <;> decide

/-! Examples -/

/-- Does the parser read an expression that ends where `w` starts? -/
def readsTo (l w : Str) : Bool :=
  match parseExpr1.run (mkEnv [l]) (mkEnv [l]).buf with
  | .ok _ r' => decide (r'.map Cell.c = w.map some ++ [none])
  | _ => false

theorem phrase_of_run {w : Str} (h : readsTo l w = true) (hw : ∀ c ∈ w, iswhite c = true) : ∃ e, Phrase l e := by
  unfold readsTo at h
  split at h
  · rename_i v r' hr
    obtain ⟨a, _, h2⟩ := parseExpr1_gram (fn := []) (mkEnv_ok [l]) (List.suffix_refl _) hr
    have h := of_decide_eq_true h
    obtain ⟨p, q, rfl, h3, h4⟩ := List.map_eq_append_iff.1 h
    obtain ⟨c, rfl, h5⟩ : ∃ c, q = [c] ∧ c.c = none := by
      cases q with
      | nil => simp at h4
      | cons c q =>
        simp only [List.map_cons, List.cons.injEq, List.map_eq_nil_iff] at h4
        exact ⟨c, by rw [h4.2], h4.1⟩
    exact ⟨a, _, w, c, h2, ⟨p, rfl, h3⟩, hw, h5⟩
  · cases h

-- expressions with all kinds of tokens; the last one needs no parentheses behind the colon
example : ∃ e, Phrase cs!"a.b[1:] + f(x)->g('y') =~# &opt . $HOME ? 0z12.34 : #{k: @a} " e :=
  phrase_of_run (w := cs!" ") (by decide +kernel) (by simp [iswhite])

-- the parser reads `[(a + 1), {x -> -1}, (0z12)]` as the three expressions in a list
example : ∃ e1 e2 e3, Phrase cs!"a + 1" e1 ∧ Phrase cs!"{x -> -1}" e2 ∧ Phrase cs!"0z12" e3 ∧
    parseExprLines [cs!"[a + 1, {x -> -1}, 0z12]"] =
      some ⟨some (.list (posAt [] 0) [e1.onPos (moveTo [] 1), e2.onPos (moveTo [] 8), e3.onPos (moveTo [] 19)]), none⟩ := by
  obtain ⟨e1, h1⟩ := phrase_of_run (l := cs!"a + 1") (w := []) (by decide +kernel) (by simp)
  obtain ⟨e2, h2⟩ := phrase_of_run (l := cs!"{x -> -1}") (w := []) (by decide +kernel) (by simp)
  obtain ⟨e3, h3⟩ := phrase_of_run (l := cs!"0z12") (w := []) (by decide +kernel) (by simp)
  refine ⟨e1, e2, e3, h1, h2, h3, ?_⟩
  have p1 : Plain cs!"a + 1" := ⟨by decide, fun u t h => by
    have h0 : '0' ∈ cs!"a + 1" := by rw [h]; simp
    exact absurd h0 (by decide)⟩
  have p2 := C69_plain (l := cs!"{x -> -1}") (.inr (.inr rfl)) rfl
  have p3 : Plain cs!"0z12" := by
    refine ⟨by decide, ?_⟩
    rintro u t h ⟨z, s, rfl, hz, _, hn⟩
    match u with
    | [] => injection h with _ h; injection h with _ h; subst h; revert hn; decide
    | [_] => injection h with _ h; injection h with h _; revert h; decide
    | [_, _] => injection h with _ h; injection h with _ h; injection h with h _; revert h; decide
    | [_, _, _] => injection h with _ h; injection h with _ h; injection h with _ h; injection h with h _; revert h; decide
    | _ :: _ :: _ :: _ :: u => simp at h
  exact C69_value (C69_list (xs := [(cs!"a + 1", e1), (cs!"{x -> -1}", e2), (cs!"0z12", e3)]) (by
    simp only [List.mem_cons, List.not_mem_nil, or_false]
    rintro x (rfl | rfl | rfl)
    · exact ⟨h1, p1⟩
    · exact ⟨h2, p2⟩
    · exact ⟨h3, p3⟩))

/-- C69.  The condition about `@` is needed: `@` alone is an expression (a register without a name), but the parser takes
the parenthesis behind it as the name of the register and misses it. -/
theorem C69_register : (∃ e, Phrase cs!"@" e) ∧ ∃ off line col msg,
    parseExprLines [cs!"(@)"] = some ⟨none, some (.parse [] off line col msg)⟩ :=
  ⟨phrase_of_run (w := []) (by decide +kernel) (by simp), _, _, _, _, by rfl⟩

end Props
end Viml
