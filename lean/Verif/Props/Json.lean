/-
C58-C60: JSON output.
-/
import Verif.Lemmas.Json
import Verif.Lemmas.JsonUnique
import Verif.Lemmas.JsonTree
import Verif.Lemmas.JsonSafe
import Verif.Lemmas.JsonDeep
import Verif.Lemmas.JsonFields
import Verif.Props.Cmdline

namespace Viml.Props
open Viml Viml.Spec

/-! ### C58: well-formed output -/

/-- What the library writes when it writes something. -/
theorem encode_text {lib : Json.Lib} {f : Ast.File} {out : Str} (h : Json.encode lib f = some out) :
    out = Json.write lib.short 0 (Json.file f) ++ ['\n'] := by
  simp only [Json.encode, Option.ite_none_right_eq_some] at h
  exact (Option.some.inj h.2).symm

/-- C58.  A tree has exactly one value: there is one value whose members are, field by field, those of the tree. -/
theorem C58_value (f : Ast.File) : ∃ v, Shows f v ∧ ∀ w, Shows f w → w = v :=
  ⟨Json.file f, (shows_iff f _).2 rfl, fun w h => (shows_iff f w).1 h⟩

/-- C58.  What the tool writes with `-json` is a JSON text and a line feed, and the value of this text is, field by field,
the tree that `ParseFile` returns. -/
theorem C58_text (lib : Json.Lib) (nv : Bool) (n : Str) (src : List UInt8) (out : Str)
    (h : Cmdline.parseFile (some (Json.encode lib)) nv n src = .ok out) :
    ∃ f v t, parseFile nv n src = some ⟨some f, none⟩ ∧ Shows f v ∧ JText v t ∧ out = t ++ ['\n'] := by
  cases (outcome_iff _ nv n src (.ok out)).2 h with
  | text _ hj => cases hj
  | json h1 hj he =>
    cases hj
    exact ⟨_, _, _, h1, (shows_iff _ _).2 rfl, write_text _ _ _, encode_text he⟩

/-- C58.  A text has at most one value. -/
theorem C58_unambiguous (v w : Json) (t : Str) (hv : JText v t) (hw : JText w t) : v = w :=
  (text_unique v w t t [] [] hv hw (fun _ _ h => nomatch h) (fun _ _ h => nomatch h) rfl).1

/-- C58.  No object has two members of the same name. -/
theorem C58_distinct (f : Ast.File) (v : Json) (hv : Shows f v) (ms : List (Str × Json)) (h : JInside (.obj ms) v) :
    (ms.map (·.1)).Nodup := by
  rw [(shows_iff f v).1 hv] at h
  exact distinct_file f ms h

/-- C58.  Hence the fields of an object can be looked up by their names. -/
theorem C58_member (f : Ast.File) (v : Json) (hv : Shows f v) (w : Json) (h : JInside w v)
    (fs : List (Str × (Json → Prop))) (hw : Rec fs w) (k : Str) (P : Json → Prop) (hk : (k, P) ∈ fs) :
    ∃ x, member w k = some x ∧ P x := by
  obtain ⟨ms, rfl, hm⟩ := hw
  exact member_of hm (C58_distinct f v hv ms h) hk

/-- C58.  A file that is accepted is written, unless its value is nested more deeply than the library admits.  Then the
tool reports an error for the file. -/
theorem C58_written (lib : Json.Lib) (nv : Bool) (n : Str) (src : List UInt8) (f : Ast.File)
    (h : parseFile nv n src = some ⟨some f, none⟩) (v : Json) (hv : Shows f v) :
    (∃ out, Cmdline.parseFile (some (Json.encode lib)) nv n src = .ok out) ∧
        (∀ L, lib.limit = some L → ¬ JNested (L + 1) v) ∨
      Cmdline.parseFile (some (Json.encode lib)) nv n src = .failed (.write n) ∧
        ∃ L, lib.limit = some L ∧ JNested (L + 1) v := by
  rw [(shows_iff f v).1 hv]
  simp only [Cmdline.parseFile, h, nested_iff]
  cases hl : lib.limit with
  | none =>
    left
    simp only [Json.encode, hl, if_true]
    exact ⟨⟨_, rfl⟩, fun _ h => nomatch h⟩
  | some L =>
    by_cases hd : Json.depth (Json.file f) ≤ L
    · left
      simp only [Json.encode, hl, hd, decide_true, if_true]
      refine ⟨⟨_, rfl⟩, fun M hM => ?_⟩
      cases hM
      omega
    · right
      simp only [Json.encode, hl, hd, decide_false, if_false, Bool.false_eq_true]
      exact ⟨trivial, L, rfl, by omega⟩

/-- C58.  Whatever the limit, there are accepted files that are too deep: `:try` nested often enough. -/
theorem C58_too_deep (L : Nat) (short nv : Bool) (n : Str) :
    ∃ src f, parseFile nv n src = some ⟨some f, none⟩ ∧
      Cmdline.parseFile (some (Json.encode ⟨short, some L⟩)) nv n src = .failed (.write n) := by
  obtain ⟨lines, f, h1, h2, h3⟩ := deep_file nv n L
  have hl : ∀ l ∈ lines, '\n' ∉ l ∧ ¬ ['\r'] <:+ l ∧ bytes l < 65536 := by
    intro l hl
    rcases h1 l hl with rfl | rfl <;> decide
  have hp : parseFile nv n (fileBytes lines) = some ⟨some f, none⟩ := by
    unfold parseFile
    rw [C40_file lines hl, h2]
  refine ⟨fileBytes lines, f, hp, ?_⟩
  rcases C58_written ⟨short, some L⟩ nv n _ f hp _ ((shows_iff f _).2 rfl) with ⟨_, h⟩ | ⟨h, _⟩
  · exact absurd ((nested_iff ..).2 (by have := nested_le h3; omega)) (h L rfl)
  · exact h

/-- The JSON output of the lines, as a list of lines. -/
def jsonOf (lib : Json.Lib) (lines : List Str) : Option (List Str) :=
  match parseFileLines false cs!"f" lines with
  | some ⟨some f, none⟩ => (Json.encode lib f).map (fun s => s.splitOn '\n')
  | _ => none

/-- Go 1.22 -/
def go122 : Json.Lib := ⟨true, some 10000⟩

/-- The attributes and the names of the parameters of the functions of a file, looked up in the value by their names. -/
def attrsOf (lines : List Str) : Option (List (Option Json)) :=
  match parseFileLines false cs!"f" lines with
  | some ⟨some f, none⟩ =>
    match member (Json.file f) cs!"Body" with
    | some (.arr (s :: _)) =>
      (member s cs!"Attr").map fun a => [member a cs!"Range", member a cs!"Abort", member a cs!"Dict", member a cs!"Closure"]
    | _ => none
  | _ => none

example : attrsOf [cs!"function! F(a) abort", cs!"endfunction"] =
    some [some (.bool false), some (.bool true), some (.bool false), some (.bool false)] := by rfl
example : attrsOf [cs!"function! F(a) dict closure", cs!"endfunction"] =
    some [some (.bool false), some (.bool false), some (.bool true), some (.bool true)] := by rfl
-- a value with two members exchanged does not show the tree
example : ¬ IsAttr ⟨false, true, false, false⟩ (.obj [(cs!"Range", .bool false), (cs!"Abort", .bool false),
    (cs!"Dict", .bool true), (cs!"Closure", .bool false)]) := by
  rintro ⟨_, h, h2⟩
  cases h
  exact nomatch h2.2.2.2.1
-- a file with a comment: the body is an array with one object; characters that matter in HTML are escaped
example : jsonOf go122 [cs!"\"a<b\x0c\"\\"] = some [
    cs!"{",
    cs!"    \"Start\": {", cs!"        \"Offset\": 0,", cs!"        \"Line\": 1,", cs!"        \"Column\": 1,",
    cs!"        \"Filename\": \"f\"", cs!"    },",
    cs!"    \"Body\": [", cs!"        {", cs!"            \"Statement\": null,", cs!"            \"Quote\": {",
    cs!"                \"Offset\": 0,", cs!"                \"Line\": 1,", cs!"                \"Column\": 1,",
    cs!"                \"Filename\": \"f\"", cs!"            },", cs!"            \"Text\": \"a\\u003cb\\f\\\"\\\\\"",
    cs!"        }", cs!"    ]", cs!"}", []] := by decide +kernel
-- the body of a file without statements is `null`
example : (jsonOf go122 []).map (List.take 3 ∘ List.drop 7) = some [cs!"    \"Body\": null", cs!"}", []] := by decide +kernel
-- the limit, with a small number: this file is nested four levels deep
example : (jsonOf ⟨true, some 4⟩ [cs!"\"a"]).isSome = true ∧ jsonOf ⟨true, some 3⟩ [cs!"\"a"] = none := by decide +kernel

/-! ### C59: the output determines the tree -/

/-- C59.  The output determines the tree, with all its positions, although objects do not tell the types of their nodes:
two trees with the same output are equal, even if they are written by different versions of the library. -/
theorem C59_injective (lib lib' : Json.Lib) (f f' : Ast.File) (out : Str) (h : Json.encode lib f = some out)
    (h' : Json.encode lib' f' = some out) : f = f' := by
  have e := encode_text h
  rw [encode_text h'] at e
  have e := List.append_cancel_right e
  refine JTree.file_inj (C58_unambiguous _ _ (Json.write lib.short 0 (Json.file f)) (write_text _ _ _) ?_)
  rw [← e]
  exact write_text _ _ _

/-- C59 for the tool: if it writes the same for two inputs, then `ParseFile` returns the same tree for both. -/
theorem C59_tool (lib : Json.Lib) (nv nv' : Bool) (n n' : Str) (src src' : List UInt8) (out : Str)
    (h : Cmdline.parseFile (some (Json.encode lib)) nv n src = .ok out)
    (h' : Cmdline.parseFile (some (Json.encode lib)) nv' n' src' = .ok out) :
    ∃ f, parseFile nv n src = some ⟨some f, none⟩ ∧ parseFile nv' n' src' = some ⟨some f, none⟩ := by
  cases (outcome_iff _ nv n src (.ok out)).2 h with
  | text _ hj => cases hj
  | json h1 hj he =>
    cases hj
    cases (outcome_iff _ nv' n' src' (.ok out)).2 h' with
    | text _ hj => cases hj
    | json h2 hj he' =>
      cases hj
      exact ⟨_, h1, C59_injective _ _ _ _ _ he' he ▸ h2⟩

-- expressions that are written alike otherwise differ in their field names: a parenthesis, a list and a dictionary
def keysAt (l : Str) : Option (List Str) :=
  match parseExprLines [l] with
  | some ⟨some e, none⟩ => some (JTree.keysOf (Json.expr e))
  | _ => none

example : keysAt cs!"(a)" = some [cs!"Lparen", cs!"X"] := by decide +kernel
example : keysAt cs!"[a]" = some [cs!"Lsquare", cs!"Values"] := by decide +kernel
example : keysAt cs!"{a -> a}" = some [cs!"Lcurlybrace", cs!"Params", cs!"Expr"] := by decide +kernel
-- two inputs with the same output: the last line end does not matter
example : jsonOf go122 [cs!"\"a"] ≠ none ∧ jsonOf go122 [cs!"\"a", []] = jsonOf go122 [cs!"\"a"] := by decide +kernel

/-! ### C60: safe characters -/

/-- C60.  The output contains no control characters but line feeds, none of `<`, `>` and `&`, and no line or paragraph
separator of Unicode, whatever the source contains. -/
theorem C60_safe (lib : Json.Lib) (f : Ast.File) (out : Str) (h : Json.encode lib f = some out) : ∀ c ∈ out, JSafe c := by
  rw [encode_text h]
  exact safe_append (safe_write _ _ _) (by decide)

/-- C60.  The text of a string has no line feed: line feeds only separate the lines of the layout. -/
theorem C60_string (short : Bool) (s : Str) : '\n' ∉ Json.writeStr short s := by
  intro h
  simp only [Json.writeStr, List.mem_cons, List.mem_append, List.mem_flatMap, List.not_mem_nil, or_false] at h
  rcases h with h | ⟨c, _, h⟩ | h
  · cases h
  · exact (safe_escapeChar short c _ h).2 rfl
  · cases h

example : Json.writeStr true cs!"<\x01\t\u2028é" = cs!"\"\\u003c\\u0001\\t\\u2028é\"" := by decide

end Viml.Props
