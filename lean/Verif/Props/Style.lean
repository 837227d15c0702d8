/-
C79: lines may be joined with bars, and comments may follow commands.
-/
import Verif.Spec.Style
import Verif.Props.Layout
import Verif.Props.Note

namespace Viml.Props
open Spec

variable {nv : Bool} {fn : Str}

/-- Files the trees of which are the same seen with `f`, or the messages. -/
theorem outline_step {f : List Ast.Stmt → List Ast.Stmt} {ls ls' : List Str} {em : ApiErr → ApiErr}
    (hm : ∀ x, messageOf (em x) = messageOf x)
    (ht : ∀ g, parseFileLines nv fn ls = some ⟨some g, none⟩ →
      ∃ g', parseFileLines nv fn ls' = some ⟨some g', none⟩ ∧ noPos (f g'.body) = noPos (f g.body))
    (he : ∀ e, parseFileLines nv fn ls = some ⟨none, some e⟩ → parseFileLines nv fn ls' = some ⟨none, some (em e)⟩) :
    outline f (parseFileLines nv fn ls) = outline f (parseFileLines nv fn ls') := by
  have key : ∀ {e}, parseFileLines nv fn ls = some ⟨none, some e⟩ →
      outline f (parseFileLines nv fn ls) = outline f (parseFileLines nv fn ls') := by
    intro e h
    rw [h, he e h]
    simp [outline, hm]
  rcases parseFileLines_good nv fn ls with ⟨g, h0, _⟩ | ⟨m, q, h0, _⟩ | ⟨h0, _⟩
  · obtain ⟨g', h1, h2⟩ := ht g h0
    rw [h0, h1]
    simp [outline, h2]
  · exact key h0
  · exact key h0

theorem outline_bar {f : List Ast.Stmt → List Ast.Stmt} (hf : ∀ m ss, f (Ast.Stmt.onPosL m ss) = Ast.Stmt.onPosL m (f ss))
    {A B : List Str} {n s l2 : Str} {c : Cmd} (hA : Between nv fn A) (hA' : Between nv fn (A ++ [n ++ s]))
    (ht : TableCmd nv n c) (hs : BarLine c s) (hj : CanJoin (n ++ s) l2 B) :
    outline f (parseFileLines nv fn (A ++ (n ++ s) :: l2 :: B)) = outline f (parseFileLines nv fn (A ++ (n ++ s ++ '|' :: l2) :: B)) := by
  refine outline_step (em := errJoin A (n ++ s)) ?_ ?_ fun e h => C77_error nv fn A n s l2 B c e hA hA' ht hs hj h
  · intro x
    cases x with
    | other => rfl
    | parse =>
      unfold errJoin
      simp only
      split
      · rfl
      · split <;> rfl
  · intro g h
    refine ⟨_, C77_tree nv fn A n s l2 B c g hA ht hs hj h, ?_⟩
    show noPos (f (Ast.Stmt.onPosL _ g.body)) = _
    rw [hf, noPos_onPos]

theorem outline_note {f : List Ast.Stmt → List Ast.Stmt} (hf : ∀ m ss, f (Ast.Stmt.onPosL m ss) = Ast.Stmt.onPosL m (f ss))
    {A B : List Str} {n s t : Str} {c : Cmd} (hi : ∀ a b, Into [noteAt fn A (n ++ s) t] a b → f a = f b)
    (hA : Between nv fn A) (hA' : Between nv fn (A ++ [n ++ s])) (ht : TableCmd nv n c) (hs : NoteLine c s)
    (hp : Plain (n ++ s)) (hB : ∀ l, B.head? = some l → afterBackslash l = none) :
    outline f (parseFileLines nv fn (A ++ (n ++ s) :: B)) = outline f (parseFileLines nv fn (A ++ (n ++ s ++ '"' :: t) :: B)) := by
  refine outline_step (em := errNote A t) ?_ ?_ fun e h => C78_error nv fn A n s t B c e hA hA' ht hs hp hB h
  · intro x
    cases x with
    | other => rfl
    | parse =>
      unfold errNote
      simp only
      split <;> rfl
  · intro g h
    obtain ⟨b, h1, h2⟩ := C78_tree nv fn A n s t B c g hA ht hs hp hB h
    refine ⟨_, h2, ?_⟩
    rw [← hi _ _ h1, hf, noPos_onPos]

theorem outline_plain {r r' : Option (ApiRes Ast.File)} (h : outline id r = outline id r') :
    outline Ast.Stmt.plainL r = outline Ast.Stmt.plainL r' := by
  have key : ∀ r : Option (ApiRes Ast.File), outline Ast.Stmt.plainL r =
      (outline id r).map fun x => (x.1.map Ast.Stmt.plainL, x.2) := by
    intro r
    cases r with
    | none => rfl
    | some x =>
      obtain ⟨n, e⟩ := x
      cases n with
      | none => rfl
      | some t =>
        simp only [outline, Option.map_some, id, Option.some.injEq, Prod.mk.injEq, and_true]
        exact (plain_stmtL _ _).symm
  rw [key, key, h]

/-- C79.  Files that differ in style have the same statements but for positions and comments, or the same message. -/
theorem C79_comments (nv : Bool) (fn : Str) (c : Bool) (ls ls' : List Str) (h : Style nv fn c ls ls') :
    outline Ast.Stmt.plainL (parseFileLines nv fn ls) = outline Ast.Stmt.plainL (parseFileLines nv fn ls') := by
  induction h with
  | layout h =>
    cases c with
    | true => exact C67_comments nv fn _ _ h
    | false =>
      have h := C67_layout nv fn _ _ h
      exact outline_plain h
  | bar hA hA' ht hs hj => exact outline_bar plain_stmtL hA hA' ht hs hj
  | note _ hA hA' ht hs hp hB =>
    exact outline_note plain_stmtL (fun _ _ => into_plain rfl) hA hA' ht hs hp hB
  | symm _ ih => exact ih.symm
  | trans _ _ ih1 ih2 => exact ih1.trans ih2

/-- C79.  Files that differ in layout, and in bars and line ends, have the same statements, with the same comments, but for
positions, or the same message. -/
theorem C79_style (nv : Bool) (fn : Str) (ls ls' : List Str) (h : Style nv fn false ls ls') :
    outline id (parseFileLines nv fn ls) = outline id (parseFileLines nv fn ls') := by
  generalize hc : false = c at h
  induction h with
  | layout h =>
    subst hc
    exact C67_layout nv fn _ _ h
  | bar hA hA' ht hs hj => exact outline_bar (fun _ _ => rfl) hA hA' ht hs hj
  | note h => rw [h] at hc; cases hc
  | symm _ ih => exact ih.symm
  | trans _ _ ih1 ih2 => exact ih1.trans ih2

/-- C79.  Of two files that differ in style both are accepted or none. -/
theorem C79_accepted (nv : Bool) (fn : Str) (c : Bool) (ls ls' : List Str) (h : Style nv fn c ls ls') :
    (∃ f, parseFileLines nv fn ls = some ⟨some f, none⟩) ↔ ∃ f, parseFileLines nv fn ls' = some ⟨some f, none⟩ := by
  have h := C79_comments nv fn c ls ls' h
  constructor
  · rintro ⟨f, hf⟩
    obtain ⟨t, ht, _⟩ := outline_accepted h hf
    exact ⟨t, ht⟩
  · rintro ⟨f, hf⟩
    obtain ⟨t, ht, _⟩ := outline_accepted h.symm hf
    exact ⟨t, ht⟩

/-- C79.  If a file is rejected with a message, a file that differs in style is rejected with the same message. -/
theorem C79_message (nv : Bool) (fn : Str) (c : Bool) (ls ls' : List Str) (h : Style nv fn c ls ls') {f o l k m}
    (hr : (parseFileLines nv fn ls).bind (·.err) = some (.parse f o l k m)) :
    ∃ o' l' k', (parseFileLines nv fn ls').bind (·.err) = some (.parse fn o' l' k' m) :=
  outline_message (C79_comments nv fn c ls ls' h) hr

/-- C79.  The command prints the same for files that differ in style, but not in comments. -/
theorem C79_output (nv : Bool) (name : Str) (src src' : List UInt8)
    (h : Style nv name false ((readlines src).map decodeUtf8) ((readlines src').map decodeUtf8)) (out : Str)
    (hr : Cmdline.parseFile none nv name src = .ok out) : Cmdline.parseFile none nv name src' = .ok out :=
  outline_output (C79_style nv name _ _ h) hr

/-- Any number of lines joined with bars is a change of style. -/
theorem folded_style {c : Bool} {A B ls : List Str} {l : Str} (h : Folded nv fn B A ls l) : Style nv fn c (A ++ ls ++ B) (A ++ l :: B) := by
  induction h with
  | last l => exact .layout (.join (by simp))
  | @bar A n s ls l x hA hA' ht hs hj _ ih =>
    have e1 : A ++ (n ++ s) :: ls ++ B = A ++ [n ++ s] ++ ls ++ B := by simp
    have e2 : A ++ [n ++ s] ++ l :: B = A ++ (n ++ s) :: l :: B := by simp
    rw [e1]
    rw [e2] at ih
    exact ih.trans (.bar hA hA' ht hs hj)

/-- C79.  Any number of commands, each in its line, can be joined with bars to one line. -/
theorem C79_fold (nv : Bool) (fn : Str) (A B ls : List Str) (l : Str) (h : Folded nv fn B A ls l) :
    outline id (parseFileLines nv fn (A ++ ls ++ B)) = outline id (parseFileLines nv fn (A ++ l :: B)) :=
  C79_style nv fn _ _ (folded_style h)

/-! ### Examples -/

theorem fold_body : Folded false cs!"f" [cs!"echo 2"] [cs!"while x"] [cs!"call" ++ cs!" F()", cs!"break" ++ [], cs!"endwhile"]
    cs!"call F()|break|endwhile" :=
  .bar (between_of (o := 8) (by decide +kernel)) (between_of (o := 17) (by decide +kernel)) (barCmd_of (by decide +kernel))
    (.quiet (by decide +kernel) (by decide +kernel) (by decide +kernel) (by rintro _ ⟨⟩; decide) (by decide) (by decide))
    ⟨plain_of (by decide) (by decide), by decide, by decide, by decide, by simp⟩ <|
  .bar (between_of (o := 17) (by decide +kernel)) (between_of (o := 23) (by decide +kernel)) (barCmd_of (by decide +kernel))
    (.quiet (by decide +kernel) (by decide +kernel) (by decide +kernel) (by rintro _ ⟨⟩) (by decide) (by decide))
    ⟨plain_of (by decide) (by decide), by decide, by decide, by decide, by simp⟩ <|
  .last _

/-- A loop in one line. -/
example : Folded false cs!"f" [cs!"echo 2"] [] [cs!"while" ++ cs!" x", cs!"call" ++ cs!" F()", cs!"break" ++ [], cs!"endwhile"]
    cs!"while x|call F()|break|endwhile" :=
  .bar (between_of (o := 0) (by decide +kernel)) (between_of (o := 8) (by decide +kernel)) (barCmd_of (by decide +kernel))
    (.quiet (by decide +kernel) (by decide +kernel) (by decide +kernel) (by rintro _ ⟨⟩; decide) (by decide) (by decide))
    ⟨plain_of (by decide) (by decide), by decide, by decide, by decide, by simp⟩ <|
  fold_body

/-- The same with a comment and blanks before the loop. -/
example : Style false cs!"f" true [cs!"while x", cs!"call F()", cs!"break", cs!"endwhile", cs!"echo 2"]
    [cs!"  while x\"why|", cs!"call F()|break|endwhile", cs!"echo 2"] := by
  have h1 : Style false cs!"f" true ([cs!"while x"] ++ [cs!"call F()", cs!"break", cs!"endwhile"] ++ [cs!"echo 2"])
      ([cs!"while x"] ++ cs!"call F()|break|endwhile" :: [cs!"echo 2"]) :=
    folded_style fold_body
  have h2 : Style false cs!"f" true ([] ++ (cs!"while" ++ cs!" x") :: [cs!"call F()|break|endwhile", cs!"echo 2"])
      ([] ++ (cs!"while" ++ cs!" x" ++ '"' :: cs!"why|") :: [cs!"call F()|break|endwhile", cs!"echo 2"]) :=
    .note rfl (between_of (o := 0) (by decide +kernel)) (between_of (o := 8) (by decide +kernel)) (barCmd_of (by decide +kernel))
      ⟨.quiet (by decide +kernel) (by decide +kernel) (by decide +kernel) (by rintro _ ⟨⟩; decide) (by decide) (by decide),
        by decide +kernel, fun e => absurd e (by decide +kernel)⟩ (plain_of (by decide) (by decide)) (by rintro _ ⟨⟩; decide)
  have h3 : Style false cs!"f" true ([] ++ cs!"while x\"why|" :: [cs!"call F()|break|endwhile", cs!"echo 2"])
      ([] ++ (cs!"  " ++ cs!"while x\"why|") :: [cs!"call F()|break|endwhile", cs!"echo 2"]) :=
    .layout (.indent (between_of (o := 0) (by decide +kernel)) (by simp [Blank]) (by decide +kernel)
      (notShebang (x := cs!"while x\"why|") (by decide +kernel) (by decide)))
  exact h1.trans (h2.trans h3)

/-- Both are accepted, and the command prints the same but for the comment. -/
example : sizes (parseFileLines false cs!"f" [cs!"while x", cs!"call F()", cs!"break", cs!"endwhile", cs!"echo 2"]) = some [0, 0] ∧
    sizes (parseFileLines false cs!"f" [cs!"  while x\"why|", cs!"call F()|break|endwhile", cs!"echo 2"]) = some [0, 0] := by decide +kernel

end Viml.Props
