/-
C67: the layout of a script does not matter.
-/
import Verif.Lemmas.Layout
import Verif.Props.Indent
import Verif.Props.InsertEnd
import Verif.Props.Relabel

namespace Viml.Props
open Spec

variable {nv : Bool} {fn : Str}

theorem outline_move {f : List Ast.Stmt → List Ast.Stmt} (hf : ∀ m ss, f (Ast.Stmt.onPosL m ss) = Ast.Stmt.onPosL m (f ss))
    {r r' : Option (ApiRes Ast.File)} {m : Ast.Pos → Ast.Pos} {s : Ast.Pos → Ast.Pos} {e : ApiErr → ApiErr}
    (he : ∀ x, messageOf (e x) = messageOf x)
    (h : r' = r.map fun x => ⟨x.node.map fun t => ⟨s t.start, Ast.Stmt.onPosL m t.body⟩, x.err.map e⟩) :
    outline f r' = outline f r := by
  subst h
  cases r with
  | none => rfl
  | some x =>
    obtain ⟨n, er⟩ := x
    simp only [outline, Option.map_some, Option.some.injEq, Prod.mk.injEq]
    constructor
    · cases n with
      | none => rfl
      | some t => simp only [Option.map_some]; rw [hf, noPos_onPos]
    · cases er with
      | none => rfl
      | some x => simp only [Option.map_some]; rw [he]

theorem outline_indent {f : List Ast.Stmt → List Ast.Stmt} (hf : ∀ m ss, f (Ast.Stmt.onPosL m ss) = Ast.Stmt.onPosL m (f ss))
    {A : List Str} {w l : Str} {B : List Str} (hA : Between nv fn A)
    (hb : Blank w) (hl : afterBackslash l = none) (hs : ¬ Shebang l B) :
    outline f (parseFileLines nv fn (A ++ l :: B)) = outline f (parseFileLines nv fn (A ++ (w ++ l) :: B)) :=
  (outline_move hf (by intro x; cases x <;> rfl) (C66_file nv fn A w l B hA hb hl hs)).symm

theorem outline_join {f : List Ast.Stmt → List Ast.Stmt} (hf : ∀ m ss, f (Ast.Stmt.onPosL m ss) = Ast.Stmt.onPosL m (f ss))
    {ls ls' : List Str} (h : logicalLines ls = logicalLines ls') :
    outline f (parseFileLines nv fn ls) = outline f (parseFileLines nv fn ls') := by
  obtain ⟨mv, hm⟩ := C56_moves ls ls'
  exact (outline_move hf (by intro x; cases x <;> rfl) (C56_file nv fn ls ls' mv hm h)).symm

/-- Lines are inserted: the comments of the lines come in, seen with `f` nothing. -/
theorem outline_insert {f : List Ast.Stmt → List Ast.Stmt} (hf : ∀ m ss, f (Ast.Stmt.onPosL m ss) = Ast.Stmt.onPosL m (f ss))
    {A W B : List Str} (hi : ∀ a b, Into (commentsAt fn A W) a b → f a = f b)
    (hA : Between nv fn A) (hW : ∀ l ∈ W, Quiet l) (hB : ∀ l, B.head? = some l → afterBackslash l = none) :
    outline f (parseFileLines nv fn (A ++ B)) = outline f (parseFileLines nv fn (A ++ W ++ B)) := by
  by_cases hn : B = []
  · subst hn
    rw [List.append_nil, List.append_nil]
    rcases C65_end nv fn A W hA hW with ⟨p, p', ss, h1, h2, _⟩ | ⟨m, h1, h2⟩
    · rw [h1, h2]
      have := hi ss (ss ++ commentsAt fn A W) (by simpa using Into.here (ws := commentsAt fn A W) ss [])
      simp [outline, this]
    · rw [h1, h2]
      rfl
  have he := C65_error nv fn A W B hA hW hn hB
  rcases C55_total nv fn (A ++ B) with ⟨g, h⟩ | ⟨m, q, h⟩ | h
  · have h := (C52_lines ..).2 h
    obtain ⟨ss, h1, h2⟩ := C65_tree nv fn A W B g hA hW hn hB h
    rw [h, h1]
    simp only [outline, Option.map_some, Option.map_none]
    rw [← hi _ _ h2, hf, noPos_onPos]
  · have h := (C54_lines nv fn (A ++ B) none fn q.i q.lnum q.col m).2 ⟨rfl, rfl, q, rfl, rfl, rfl, h⟩
    rw [h] at he ⊢
    cases hp : parseFileLines nv fn (A ++ W ++ B) with
    | none => rw [hp] at he; cases he
    | some x =>
      obtain ⟨n, e⟩ := x
      rw [hp] at he
      obtain rfl : e = _ := he
      cases ((C54_lines ..).1 hp).1
      rfl
  · have h := (other_lines nv fn (A ++ B) none).2 ⟨rfl, h⟩
    rw [h] at he ⊢
    cases hp : parseFileLines nv fn (A ++ W ++ B) with
    | none => rw [hp] at he; cases he
    | some x =>
      obtain ⟨n, e⟩ := x
      rw [hp] at he
      obtain rfl : e = _ := he
      cases ((other_lines ..).1 hp).1
      rfl

/-- C67.  Files that differ in layout and in comment lines have the same statements but for positions and comments, or the
same message. -/
theorem C67_comments (nv : Bool) (fn : Str) (ls ls' : List Str) (h : Layout nv fn Quiet ls ls') :
    outline Ast.Stmt.plainL (parseFileLines nv fn ls) = outline Ast.Stmt.plainL (parseFileLines nv fn ls') := by
  induction h with
  | insert hA hW hB => exact outline_insert plain_stmtL (fun _ _ => into_plain (plain_comments fn _ _)) hA hW hB
  | indent hA hb hl hs => exact outline_indent plain_stmtL hA hb hl hs
  | join h => exact outline_join plain_stmtL h
  | symm _ ih => exact ih.symm
  | trans _ _ ih1 ih2 => exact ih1.trans ih2

/-- C67.  Files that differ in layout have the same statements, with the same comments, but for positions, or the same
message. -/
theorem C67_layout (nv : Bool) (fn : Str) (ls ls' : List Str) (h : Layout nv fn Blank ls ls') :
    outline id (parseFileLines nv fn ls) = outline id (parseFileLines nv fn ls') := by
  induction h with
  | insert hA hW hB =>
    refine outline_insert (fun _ _ => rfl) (fun a b h => ?_) hA (fun l hl => .inl (Empty.after (hW l hl))) hB
    rw [commentsAt_empty fn _ _ hW] at h
    exact h.same
  | indent hA hb hl hs => exact outline_indent (fun _ _ => rfl) hA hb hl hs
  | join h => exact outline_join (fun _ _ => rfl) h
  | symm _ ih => exact ih.symm
  | trans _ _ ih1 ih2 => exact ih1.trans ih2

theorem outline_accepted {f : List Ast.Stmt → List Ast.Stmt} {r r' : Option (ApiRes Ast.File)} (h : outline f r = outline f r')
    {t : Ast.File} (ht : r = some ⟨some t, none⟩) : ∃ t', r' = some ⟨some t', none⟩ ∧ noPos (f t.body) = noPos (f t'.body) := by
  subst ht
  match r', h with
  | some ⟨some t', none⟩, h =>
    simp only [outline, Option.map_some, Option.map_none, Option.some.injEq, Prod.mk.injEq, and_true] at h
    exact ⟨t', rfl, h⟩
  | some ⟨none, _⟩, h => simp [outline] at h
  | some ⟨some _, some _⟩, h => simp [outline, messageOf] at h
  | none, h => simp [outline] at h

/-- C67.  Of two files that differ in layout and in comment lines both are accepted or none. -/
theorem C67_accepted (nv : Bool) (fn : Str) (ls ls' : List Str) (h : Layout nv fn Quiet ls ls') :
    (∃ f, parseFileLines nv fn ls = some ⟨some f, none⟩) ↔ ∃ f, parseFileLines nv fn ls' = some ⟨some f, none⟩ := by
  have h := C67_comments nv fn ls ls' h
  constructor
  · rintro ⟨f, hf⟩
    obtain ⟨t, ht, _⟩ := outline_accepted h hf
    exact ⟨t, ht⟩
  · rintro ⟨f, hf⟩
    obtain ⟨t, ht, _⟩ := outline_accepted h.symm hf
    exact ⟨t, ht⟩

theorem outline_message {ls ls' : List Str}
    (h : outline Ast.Stmt.plainL (parseFileLines nv fn ls) = outline Ast.Stmt.plainL (parseFileLines nv fn ls')) {f o l c m}
    (hr : (parseFileLines nv fn ls).bind (·.err) = some (.parse f o l c m)) :
    ∃ o' l' c', (parseFileLines nv fn ls').bind (·.err) = some (.parse fn o' l' c' m) := by
  cases hp : parseFileLines nv fn ls with
  | none => rw [hp] at hr; cases hr
  | some x =>
    obtain ⟨n, e⟩ := x
    rw [hp] at hr
    obtain rfl : e = _ := hr
    rw [hp] at h
    match hq : parseFileLines nv fn ls' with
    | none => rw [hq] at h; simp [outline, messageOf] at h
    | some ⟨n', none⟩ => rw [hq] at h; simp [outline, messageOf] at h
    | some ⟨n', some .other⟩ => rw [hq] at h; simp [outline, messageOf] at h
    | some ⟨n', some (.parse f' o' l' c' m')⟩ =>
      rw [hq] at h
      simp only [outline, messageOf, Option.map_some, Option.some.injEq, Prod.mk.injEq] at h
      obtain ⟨_, rfl⟩ := h
      obtain ⟨_, rfl, _⟩ := (C54_lines ..).1 hq
      exact ⟨o', l', c', rfl⟩

/-- C67.  If a file is rejected with a message, a file that differs in layout and comment lines is rejected with the same
message. -/
theorem C67_message (nv : Bool) (fn : Str) (ls ls' : List Str) (h : Layout nv fn Quiet ls ls') {f o l c m}
    (hr : (parseFileLines nv fn ls).bind (·.err) = some (.parse f o l c m)) :
    ∃ o' l' c', (parseFileLines nv fn ls').bind (·.err) = some (.parse fn o' l' c' m) :=
  outline_message (C67_comments nv fn ls ls' h) hr

theorem outline_output {name : Str} {src src' : List UInt8}
    (h : outline id (parseFileLines nv name ((readlines src).map decodeUtf8)) =
      outline id (parseFileLines nv name ((readlines src').map decodeUtf8))) {out : Str}
    (hr : Cmdline.parseFile none nv name src = .ok out) : Cmdline.parseFile none nv name src' = .ok out := by
  unfold Cmdline.parseFile at hr ⊢
  have hr' := hr
  cases hp : parseFile nv name src with
  | none => rw [hp] at hr; cases hr
  | some x =>
    rw [hp] at hr
    obtain ⟨n, e⟩ := x
    cases e with
    | some e => cases hr
    | none =>
      cases n with
      | none => cases hr
      | some f =>
        obtain ⟨t, ht, e⟩ := outline_accepted h hp
        have ht : parseFile nv name src' = some ⟨some t, none⟩ := ht
        rw [ht]
        have e1 : Comp.compileFile t = Comp.compileFile f := by
          have := C57_compile_file (fun _ => ⟨0, 0, 0, []⟩) f
          rw [← C57_compile_file (fun _ => ⟨0, 0, 0, []⟩) t, ← this]
          show Comp.compileFile ⟨_, noPos t.body⟩ = Comp.compileFile ⟨_, noPos f.body⟩
          rw [show noPos t.body = noPos f.body from e.symm]
        show (match Comp.compileFile t with | .text s => _ | .err => _ | .panic => _) = _
        rw [e1]
        exact hr

/-- C67.  The command prints the same for files that differ in layout. -/
theorem C67_output (nv : Bool) (name : Str) (src src' : List UInt8)
    (h : Layout nv name Blank ((readlines src).map decodeUtf8) ((readlines src').map decodeUtf8)) (out : Str)
    (hr : Cmdline.parseFile none nv name src = .ok out) : Cmdline.parseFile none nv name src' = .ok out :=
  outline_output (C67_layout nv name _ _ h) hr

/-! ### Examples -/

/-- The same script twice. -/
def layA : List Str := [cs!"if x", cs!"call F([1,", cs!"\\ 2])", cs!"endif"]
def layB : List Str := [cs!"", cs!" if x", cs!"", cs!"\t:call F([1, 2])", cs!"\" done", cs!":endif"]

theorem notShebang {l : Str} {B : List Str} {x : Str} (h : (logicalLines (l :: B)).head? = some x) (hx : x.take 2 ≠ cs!"#!") :
    ¬ Shebang l B := by
  rintro ⟨t, ht⟩
  rw [h] at ht
  injection ht with ht
  subst ht
  exact hx rfl

theorem lay_example : Layout false cs!"f" Quiet layA layB := by
  have h1 : Layout false cs!"f" Quiet layA [cs!"if x", cs!"call F([1, 2])", cs!"endif"] := .join (by decide +kernel)
  have h2 : Layout false cs!"f" Quiet ([] ++ cs!"if x" :: [cs!"call F([1, 2])", cs!"endif"]) ([] ++ (cs!" " ++ cs!"if x") :: _) :=
    .indent (between_of (o := 0) (by decide +kernel)) (by simp [Blank]) (by decide +kernel)
      (notShebang (x := cs!"if x") (by decide +kernel) (by decide))
  have h3 : Layout false cs!"f" Quiet ([] ++ [cs!" if x", cs!"call F([1, 2])", cs!"endif"]) ([] ++ [cs!""] ++ _) :=
    .insert (between_of (o := 0) (by decide +kernel)) (by simp [Quiet, afterLead]) (by rintro _ ⟨⟩; decide +kernel)
  have h4 : Layout false cs!"f" Quiet ([cs!"", cs!" if x"] ++ [cs!"call F([1, 2])", cs!"endif"])
      ([cs!"", cs!" if x"] ++ [cs!""] ++ _) :=
    .insert (between_of (o := 7) (by decide +kernel)) (by simp [Quiet, afterLead]) (by rintro _ ⟨⟩; decide +kernel)
  have h5 : Layout false cs!"f" Quiet ([cs!"", cs!" if x", cs!""] ++ cs!"call F([1, 2])" :: [cs!"endif"])
      ([cs!"", cs!" if x", cs!""] ++ (cs!"\t:" ++ cs!"call F([1, 2])") :: _) :=
    .indent (between_of (o := 8) (by decide +kernel)) (by simp [Blank]) (by decide +kernel)
      (notShebang (x := cs!"call F([1, 2])") (by decide +kernel) (by decide))
  have h6 : Layout false cs!"f" Quiet ([cs!"", cs!" if x", cs!"", cs!"\t:call F([1, 2])"] ++ [cs!"endif"])
      ([cs!"", cs!" if x", cs!"", cs!"\t:call F([1, 2])"] ++ [cs!"\" done"] ++ _) :=
    .insert (between_of (o := 25) (by decide +kernel)) (by simp [Quiet, afterLead, lead]) (by rintro _ ⟨⟩; decide +kernel)
  have h7 : Layout false cs!"f" Quiet ([cs!"", cs!" if x", cs!"", cs!"\t:call F([1, 2])", cs!"\" done"] ++ cs!"endif" :: [])
      ([cs!"", cs!" if x", cs!"", cs!"\t:call F([1, 2])", cs!"\" done"] ++ (cs!":" ++ cs!"endif") :: _) :=
    .indent (between_of (o := 32) (by decide +kernel)) (by simp [Blank]) (by decide +kernel)
      (notShebang (x := cs!"endif") (by decide +kernel) (by decide))
  exact h1.trans (h2.trans (h3.trans (h4.trans (h5.trans (h6.trans h7)))))

example : outline Ast.Stmt.plainL (parseFileLines false cs!"f" layA) = outline Ast.Stmt.plainL (parseFileLines false cs!"f" layB) :=
  C67_comments _ _ _ _ lay_example

/-- Not just any comment line can be deleted: in a here-document it is text. -/
example : (outline Ast.Stmt.plainL (parseFileLines false [] [cs!"let z =<< E", cs!"\" a", cs!"E"])).isSome = true ∧
    sizes (parseFileLines false [] [cs!"let z =<< E", cs!"\" a", cs!"E"]) = some [1] ∧
    sizes (parseFileLines false [] [cs!"let z =<< E", cs!"E"]) = some [0] := by decide +kernel

end Viml.Props
