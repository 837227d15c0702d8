/-
The names of the built-in commands as numbers, on which the kernel can check all pairs of entries.
-/
import Verif.Lemmas.Lookup

namespace Viml
open Spec

/-- Names (as character codes) and minimum lengths of the built-in commands. -/
def codes : List (List Nat × Nat) := [
  ([97, 112, 112, 101, 110, 100], 1), ([97, 98, 98, 114, 101, 118, 105, 97, 116, 101], 2),
  ([97, 98, 99, 108, 101, 97, 114], 3), ([97, 98, 111, 118, 101, 108, 101, 102, 116], 3),
  ([97, 108, 108], 2), ([97, 109, 101, 110, 117], 2), ([97, 110, 111, 114, 101, 109, 101, 110, 117], 2),
  ([97, 114, 103, 115], 2), ([97, 114, 103, 97, 100, 100], 4),
  ([97, 114, 103, 100, 101, 108, 101, 116, 101], 4), ([97, 114, 103, 101, 100, 105, 116], 4),
  ([97, 114, 103, 100, 111], 5), ([97, 114, 103, 103, 108, 111, 98, 97, 108], 4),
  ([97, 114, 103, 108, 111, 99, 97, 108], 4), ([97, 114, 103, 117, 109, 101, 110, 116], 4),
  ([97, 115, 99, 105, 105], 2), ([97, 117, 116, 111, 99, 109, 100], 2),
  ([97, 117, 103, 114, 111, 117, 112], 3), ([97, 117, 110, 109, 101, 110, 117], 3),
  ([98, 117, 102, 102, 101, 114], 1), ([98, 78, 101, 120, 116], 2), ([98, 97, 108, 108], 2),
  ([98, 97, 100, 100], 3), ([98, 100, 101, 108, 101, 116, 101], 2), ([98, 101, 104, 97, 118, 101], 2),
  ([98, 101, 108, 111, 119, 114, 105, 103, 104, 116], 3), ([98, 102, 105, 114, 115, 116], 2),
  ([98, 108, 97, 115, 116], 2), ([98, 109, 111, 100, 105, 102, 105, 101, 100], 2),
  ([98, 110, 101, 120, 116], 2), ([98, 111, 116, 114, 105, 103, 104, 116], 2),
  ([98, 112, 114, 101, 118, 105, 111, 117, 115], 2), ([98, 114, 101, 119, 105, 110, 100], 2),
  ([98, 114, 101, 97, 107], 4), ([98, 114, 101, 97, 107, 97, 100, 100], 6),
  ([98, 114, 101, 97, 107, 100, 101, 108], 6), ([98, 114, 101, 97, 107, 108, 105, 115, 116], 6),
  ([98, 114, 111, 119, 115, 101], 3), ([98, 117, 102, 100, 111], 5),
  ([98, 117, 102, 102, 101, 114, 115], 7), ([98, 117, 110, 108, 111, 97, 100], 3),
  ([98, 119, 105, 112, 101, 111, 117, 116], 2), ([99, 104, 97, 110, 103, 101], 1),
  ([99, 78, 101, 120, 116], 2), ([99, 78, 102, 105, 108, 101], 3), ([99, 97, 98, 98, 114, 101, 118], 2),
  ([99, 97, 98, 99, 108, 101, 97, 114], 4), ([99, 97, 100, 100, 98, 117, 102, 102, 101, 114], 3),
  ([99, 97, 100, 100, 101, 120, 112, 114], 5), ([99, 97, 100, 100, 102, 105, 108, 101], 5),
  ([99, 97, 108, 108], 3), ([99, 97, 116, 99, 104], 3), ([99, 98, 117, 102, 102, 101, 114], 2),
  ([99, 99], 2), ([99, 99, 108, 111, 115, 101], 3), ([99, 100], 2), ([99, 101, 110, 116, 101, 114], 2),
  ([99, 101, 120, 112, 114], 3), ([99, 102, 105, 108, 101], 2), ([99, 102, 105, 114, 115, 116], 4),
  ([99, 103, 101, 116, 98, 117, 102, 102, 101, 114], 5), ([99, 103, 101, 116, 101, 120, 112, 114], 5),
  ([99, 103, 101, 116, 102, 105, 108, 101], 2), ([99, 104, 97, 110, 103, 101, 115], 7),
  ([99, 104, 100, 105, 114], 3), ([99, 104, 101, 99, 107, 112, 97, 116, 104], 3),
  ([99, 104, 101, 99, 107, 116, 105, 109, 101], 6), ([99, 108, 105, 115, 116], 2),
  ([99, 108, 97, 115, 116], 3), ([99, 108, 111, 115, 101], 3), ([99, 109, 97, 112], 2),
  ([99, 109, 97, 112, 99, 108, 101, 97, 114], 5), ([99, 109, 101, 110, 117], 3),
  ([99, 110, 101, 120, 116], 2), ([99, 110, 101, 119, 101, 114], 4), ([99, 110, 102, 105, 108, 101], 3),
  ([99, 110, 111, 114, 101, 109, 97, 112], 3), ([99, 110, 111, 114, 101, 97, 98, 98, 114, 101, 118], 6),
  ([99, 110, 111, 114, 101, 109, 101, 110, 117], 7), ([99, 111, 112, 121], 2),
  ([99, 111, 108, 100, 101, 114], 3), ([99, 111, 108, 111, 114, 115, 99, 104, 101, 109, 101], 4),
  ([99, 111, 109, 109, 97, 110, 100], 3), ([99, 111, 109, 99, 108, 101, 97, 114], 4),
  ([99, 111, 109, 112, 105, 108, 101, 114], 4), ([99, 111, 110, 116, 105, 110, 117, 101], 3),
  ([99, 111, 110, 102, 105, 114, 109], 4), ([99, 111, 112, 101, 110], 4),
  ([99, 112, 114, 101, 118, 105, 111, 117, 115], 2), ([99, 112, 102, 105, 108, 101], 3),
  ([99, 113, 117, 105, 116], 2), ([99, 114, 101, 119, 105, 110, 100], 2),
  ([99, 115, 99, 111, 112, 101], 2), ([99, 115, 116, 97, 103], 3), ([99, 117, 110, 109, 97, 112], 2),
  ([99, 117, 110, 97, 98, 98, 114, 101, 118], 4), ([99, 117, 110, 109, 101, 110, 117], 5),
  ([99, 119, 105, 110, 100, 111, 119], 2), ([100, 101, 108, 101, 116, 101], 1),
  ([100, 101, 108, 109, 97, 114, 107, 115], 4), ([100, 101, 98, 117, 103], 3),
  ([100, 101, 98, 117, 103, 103, 114, 101, 101, 100, 121], 6),
  ([100, 101, 108, 99, 111, 109, 109, 97, 110, 100], 4),
  ([100, 101, 108, 102, 117, 110, 99, 116, 105, 111, 110], 4),
  ([100, 105, 102, 102, 117, 112, 100, 97, 116, 101], 3), ([100, 105, 102, 102, 103, 101, 116], 5),
  ([100, 105, 102, 102, 111, 102, 102], 5), ([100, 105, 102, 102, 112, 97, 116, 99, 104], 5),
  ([100, 105, 102, 102, 112, 117, 116], 6), ([100, 105, 102, 102, 115, 112, 108, 105, 116], 5),
  ([100, 105, 102, 102, 116, 104, 105, 115], 5), ([100, 105, 103, 114, 97, 112, 104, 115], 3),
  ([100, 105, 115, 112, 108, 97, 121], 2), ([100, 106, 117, 109, 112], 2), ([100, 108, 105, 115, 116], 2),
  ([100, 111, 97, 117, 116, 111, 99, 109, 100], 2), ([100, 111, 97, 117, 116, 111, 97, 108, 108], 7),
  ([100, 114, 111, 112], 2), ([100, 115, 101, 97, 114, 99, 104], 2), ([100, 115, 112, 108, 105, 116], 3),
  ([101, 100, 105, 116], 1), ([101, 97, 114, 108, 105, 101, 114], 2), ([101, 99, 104, 111], 2),
  ([101, 99, 104, 111, 101, 114, 114], 5), ([101, 99, 104, 111, 104, 108], 5),
  ([101, 99, 104, 111, 109, 115, 103], 5), ([101, 99, 104, 111, 110], 5), ([101, 108, 115, 101], 2),
  ([101, 108, 115, 101, 105, 102], 5), ([101, 109, 101, 110, 117], 2), ([101, 110, 100, 105, 102], 2),
  ([101, 110, 100, 102, 111, 114], 5), ([101, 110, 100, 102, 117, 110, 99, 116, 105, 111, 110], 4),
  ([101, 110, 100, 116, 114, 121], 4), ([101, 110, 100, 119, 104, 105, 108, 101], 4),
  ([101, 110, 101, 119], 3), ([101, 118, 97, 108], 2), ([101, 120], 2),
  ([101, 120, 101, 99, 117, 116, 101], 3), ([101, 120, 105, 116], 3),
  ([101, 120, 117, 115, 97, 103, 101], 3), ([102, 105, 108, 101], 1), ([102, 105, 108, 101, 115], 5),
  ([102, 105, 108, 101, 116, 121, 112, 101], 5), ([102, 105, 110, 100], 3),
  ([102, 105, 110, 97, 108, 108, 121], 4), ([102, 105, 110, 105, 115, 104], 4),
  ([102, 105, 114, 115, 116], 3), ([102, 105, 120, 100, 101, 108], 3), ([102, 111, 108, 100], 2),
  ([102, 111, 108, 100, 99, 108, 111, 115, 101], 5),
  ([102, 111, 108, 100, 100, 111, 111, 112, 101, 110], 5),
  ([102, 111, 108, 100, 100, 111, 99, 108, 111, 115, 101, 100], 7),
  ([102, 111, 108, 100, 111, 112, 101, 110], 5), ([102, 111, 114], 3),
  ([102, 117, 110, 99, 116, 105, 111, 110], 2), ([103, 108, 111, 98, 97, 108], 1),
  ([103, 111, 116, 111], 2), ([103, 114, 101, 112], 2), ([103, 114, 101, 112, 97, 100, 100], 5),
  ([103, 117, 105], 2), ([103, 118, 105, 109], 2), ([104, 97, 114, 100, 99, 111, 112, 121], 2),
  ([104, 101, 108, 112], 1), ([104, 101, 108, 112, 102, 105, 110, 100], 5),
  ([104, 101, 108, 112, 103, 114, 101, 112], 5), ([104, 101, 108, 112, 116, 97, 103, 115], 5),
  ([104, 105, 103, 104, 108, 105, 103, 104, 116], 2), ([104, 105, 100, 101], 3),
  ([104, 105, 115, 116, 111, 114, 121], 3), ([105, 110, 115, 101, 114, 116], 1),
  ([105, 97, 98, 98, 114, 101, 118], 2), ([105, 97, 98, 99, 108, 101, 97, 114], 4), ([105, 102], 2),
  ([105, 106, 117, 109, 112], 2), ([105, 108, 105, 115, 116], 2), ([105, 109, 97, 112], 2),
  ([105, 109, 97, 112, 99, 108, 101, 97, 114], 5), ([105, 109, 101, 110, 117], 3),
  ([105, 110, 111, 114, 101, 109, 97, 112], 3), ([105, 110, 111, 114, 101, 97, 98, 98, 114, 101, 118], 6),
  ([105, 110, 111, 114, 101, 109, 101, 110, 117], 7), ([105, 110, 116, 114, 111], 3),
  ([105, 115, 101, 97, 114, 99, 104], 2), ([105, 115, 112, 108, 105, 116], 3),
  ([105, 117, 110, 109, 97, 112], 2), ([105, 117, 110, 97, 98, 98, 114, 101, 118], 4),
  ([105, 117, 110, 109, 101, 110, 117], 5), ([106, 111, 105, 110], 1), ([106, 117, 109, 112, 115], 2),
  ([107], 1), ([107, 101, 101, 112, 97, 108, 116], 5), ([107, 101, 101, 112, 109, 97, 114, 107, 115], 3),
  ([107, 101, 101, 112, 106, 117, 109, 112, 115], 5),
  ([107, 101, 101, 112, 112, 97, 116, 116, 101, 114, 110, 115], 5), ([108, 78, 101, 120, 116], 2),
  ([108, 78, 102, 105, 108, 101], 3), ([108, 105, 115, 116], 1),
  ([108, 97, 100, 100, 101, 120, 112, 114], 3), ([108, 97, 100, 100, 98, 117, 102, 102, 101, 114], 5),
  ([108, 97, 100, 100, 102, 105, 108, 101], 5), ([108, 97, 115, 116], 2),
  ([108, 97, 110, 103, 117, 97, 103, 101], 3), ([108, 97, 116, 101, 114], 3),
  ([108, 98, 117, 102, 102, 101, 114], 2), ([108, 99, 100], 2), ([108, 99, 104, 100, 105, 114], 3),
  ([108, 99, 108, 111, 115, 101], 3), ([108, 99, 115, 99, 111, 112, 101], 3), ([108, 101, 102, 116], 2),
  ([108, 101, 102, 116, 97, 98, 111, 118, 101], 5), ([108, 101, 116], 3), ([99, 111, 110, 115, 116], 4),
  ([108, 101, 120, 112, 114], 3), ([108, 102, 105, 108, 101], 2), ([108, 102, 105, 114, 115, 116], 4),
  ([108, 103, 101, 116, 98, 117, 102, 102, 101, 114], 5), ([108, 103, 101, 116, 101, 120, 112, 114], 5),
  ([108, 103, 101, 116, 102, 105, 108, 101], 2), ([108, 103, 114, 101, 112], 3),
  ([108, 103, 114, 101, 112, 97, 100, 100], 6), ([108, 104, 101, 108, 112, 103, 114, 101, 112], 2),
  ([108, 108], 2), ([108, 108, 97, 115, 116], 3), ([108, 105, 115, 116], 3), ([108, 109, 97, 107, 101], 4),
  ([108, 109, 97, 112], 2), ([108, 109, 97, 112, 99, 108, 101, 97, 114], 5),
  ([108, 110, 101, 120, 116], 3), ([108, 110, 101, 119, 101, 114], 4), ([108, 110, 102, 105, 108, 101], 3),
  ([108, 110, 111, 114, 101, 109, 97, 112], 2), ([108, 111, 97, 100, 107, 101, 121, 109, 97, 112], 5),
  ([108, 111, 97, 100, 118, 105, 101, 119], 2), ([108, 111, 99, 107, 109, 97, 114, 107, 115], 3),
  ([108, 111, 99, 107, 118, 97, 114], 5), ([108, 111, 108, 100, 101, 114], 3),
  ([108, 111, 112, 101, 110], 3), ([108, 112, 114, 101, 118, 105, 111, 117, 115], 2),
  ([108, 112, 102, 105, 108, 101], 3), ([108, 114, 101, 119, 105, 110, 100], 2), ([108, 115], 2),
  ([108, 116, 97, 103], 2), ([108, 117, 110, 109, 97, 112], 2), ([108, 117, 97], 3),
  ([108, 117, 97, 100, 111], 4), ([108, 117, 97, 102, 105, 108, 101], 4),
  ([108, 118, 105, 109, 103, 114, 101, 112], 2),
  ([108, 118, 105, 109, 103, 114, 101, 112, 97, 100, 100], 9), ([108, 119, 105, 110, 100, 111, 119], 2),
  ([109, 111, 118, 101], 1), ([109, 97, 114, 107], 2), ([109, 97, 107, 101], 3), ([109, 97, 112], 3),
  ([109, 97, 112, 99, 108, 101, 97, 114], 4), ([109, 97, 114, 107, 115], 5), ([109, 97, 116, 99, 104], 3),
  ([109, 101, 110, 117], 2), ([109, 101, 110, 117, 116, 114, 97, 110, 115, 108, 97, 116, 101], 5),
  ([109, 101, 115, 115, 97, 103, 101, 115], 3), ([109, 107, 101, 120, 114, 99], 2),
  ([109, 107, 115, 101, 115, 115, 105, 111, 110], 3), ([109, 107, 115, 112, 101, 108, 108], 4),
  ([109, 107, 118, 105, 109, 114, 99], 3), ([109, 107, 118, 105, 101, 119], 5), ([109, 111, 100, 101], 3),
  ([109, 122, 115, 99, 104, 101, 109, 101], 2), ([109, 122, 102, 105, 108, 101], 3),
  ([110, 98, 99, 108, 111, 115, 101], 3), ([110, 98, 107, 101, 121], 2),
  ([110, 98, 115, 116, 97, 114, 116], 3), ([110, 101, 120, 116], 1), ([110, 101, 119], 3),
  ([110, 109, 97, 112], 2), ([110, 109, 97, 112, 99, 108, 101, 97, 114], 5),
  ([110, 109, 101, 110, 117], 3), ([110, 110, 111, 114, 101, 109, 97, 112], 2),
  ([110, 110, 111, 114, 101, 109, 101, 110, 117], 7), ([110, 111, 97, 117, 116, 111, 99, 109, 100], 3),
  ([110, 111, 114, 101, 109, 97, 112], 2), ([110, 111, 104, 108, 115, 101, 97, 114, 99, 104], 3),
  ([110, 111, 114, 101, 97, 98, 98, 114, 101, 118], 5), ([110, 111, 114, 101, 109, 101, 110, 117], 6),
  ([110, 111, 114, 109, 97, 108], 4), ([110, 117, 109, 98, 101, 114], 2),
  ([110, 117, 110, 109, 97, 112], 3), ([110, 117, 110, 109, 101, 110, 117], 5),
  ([111, 108, 100, 102, 105, 108, 101, 115], 2), ([111, 112, 101, 110], 1), ([111, 109, 97, 112], 2),
  ([111, 109, 97, 112, 99, 108, 101, 97, 114], 5), ([111, 109, 101, 110, 117], 3),
  ([111, 110, 108, 121], 2), ([111, 110, 111, 114, 101, 109, 97, 112], 3),
  ([111, 110, 111, 114, 101, 109, 101, 110, 117], 7), ([111, 112, 116, 105, 111, 110, 115], 3),
  ([111, 117, 110, 109, 97, 112], 2), ([111, 117, 110, 109, 101, 110, 117], 5),
  ([111, 119, 110, 115, 121, 110, 116, 97, 120], 2), ([112, 99, 108, 111, 115, 101], 2),
  ([112, 101, 100, 105, 116], 3), ([112, 101, 114, 108], 2), ([112, 114, 105, 110, 116], 1),
  ([112, 114, 111, 102, 100, 101, 108], 5), ([112, 114, 111, 102, 105, 108, 101], 4),
  ([112, 114, 111, 109, 112, 116, 102, 105, 110, 100], 3),
  ([112, 114, 111, 109, 112, 116, 114, 101, 112, 108], 7), ([112, 101, 114, 108, 100, 111], 5),
  ([112, 111, 112], 2), ([112, 111, 112, 117, 112], 4), ([112, 112, 111, 112], 2),
  ([112, 114, 101, 115, 101, 114, 118, 101], 3), ([112, 114, 101, 118, 105, 111, 117, 115], 4),
  ([112, 115, 101, 97, 114, 99, 104], 2), ([112, 116, 97, 103], 2), ([112, 116, 78, 101, 120, 116], 3),
  ([112, 116, 102, 105, 114, 115, 116], 3), ([112, 116, 106, 117, 109, 112], 3),
  ([112, 116, 108, 97, 115, 116], 3), ([112, 116, 110, 101, 120, 116], 3),
  ([112, 116, 112, 114, 101, 118, 105, 111, 117, 115], 3), ([112, 116, 114, 101, 119, 105, 110, 100], 3),
  ([112, 116, 115, 101, 108, 101, 99, 116], 3), ([112, 117, 116], 2), ([112, 119, 100], 2),
  ([112, 121, 51], 3), ([112, 121, 116, 104, 111, 110, 51], 7), ([112, 121, 51, 102, 105, 108, 101], 4),
  ([112, 121, 116, 104, 111, 110], 2), ([112, 121, 102, 105, 108, 101], 3), ([112, 121, 100, 111], 3),
  ([112, 121, 51, 100, 111], 4), ([113, 117, 105, 116], 1), ([113, 117, 105, 116, 97, 108, 108], 5),
  ([113, 97, 108, 108], 2), ([114, 101, 97, 100], 1), ([114, 101, 99, 111, 118, 101, 114], 3),
  ([114, 101, 100, 111], 3), ([114, 101, 100, 105, 114], 4), ([114, 101, 100, 114, 97, 119], 4),
  ([114, 101, 100, 114, 97, 119, 115, 116, 97, 116, 117, 115], 7),
  ([114, 101, 103, 105, 115, 116, 101, 114, 115], 3), ([114, 101, 115, 105, 122, 101], 3),
  ([114, 101, 116, 97, 98], 3), ([114, 101, 116, 117, 114, 110], 4), ([114, 101, 119, 105, 110, 100], 3),
  ([114, 105, 103, 104, 116], 2), ([114, 105, 103, 104, 116, 98, 101, 108, 111, 119], 6),
  ([114, 117, 98, 121], 3), ([114, 117, 98, 121, 100, 111], 5),
  ([114, 117, 98, 121, 102, 105, 108, 101], 5), ([114, 117, 110, 100, 111], 4),
  ([114, 117, 110, 116, 105, 109, 101], 2), ([114, 118, 105, 109, 105, 110, 102, 111], 2),
  ([115, 117, 98, 115, 116, 105, 116, 117, 116, 101], 1), ([115, 78, 101, 120, 116], 2),
  ([115, 97, 110, 100, 98, 111, 120], 3), ([115, 97, 114, 103, 117, 109, 101, 110, 116], 2),
  ([115, 97, 108, 108], 3), ([115, 97, 118, 101, 97, 115], 3), ([115, 98, 117, 102, 102, 101, 114], 2),
  ([115, 98, 78, 101, 120, 116], 3), ([115, 98, 97, 108, 108], 3), ([115, 98, 102, 105, 114, 115, 116], 3),
  ([115, 98, 108, 97, 115, 116], 3), ([115, 98, 109, 111, 100, 105, 102, 105, 101, 100], 3),
  ([115, 98, 110, 101, 120, 116], 3), ([115, 98, 112, 114, 101, 118, 105, 111, 117, 115], 3),
  ([115, 98, 114, 101, 119, 105, 110, 100], 3), ([115, 99, 114, 105, 112, 116, 110, 97, 109, 101, 115], 3),
  ([115, 99, 114, 105, 112, 116, 101, 110, 99, 111, 100, 105, 110, 103], 7),
  ([115, 99, 115, 99, 111, 112, 101], 3), ([115, 101, 116], 2),
  ([115, 101, 116, 102, 105, 108, 101, 116, 121, 112, 101], 4),
  ([115, 101, 116, 103, 108, 111, 98, 97, 108], 4), ([115, 101, 116, 108, 111, 99, 97, 108], 4),
  ([115, 102, 105, 110, 100], 2), ([115, 102, 105, 114, 115, 116], 4), ([115, 104, 101, 108, 108], 2),
  ([115, 105, 109, 97, 108, 116], 3), ([115, 105, 103, 110], 3), ([115, 105, 108, 101, 110, 116], 3),
  ([115, 108, 101, 101, 112], 2), ([115, 108, 97, 115, 116], 3), ([115, 109, 97, 103, 105, 99], 2),
  ([115, 109, 97, 112], 4), ([115, 109, 97, 112, 99, 108, 101, 97, 114], 5),
  ([115, 109, 101, 110, 117], 3), ([115, 110, 101, 120, 116], 2), ([115, 110, 105, 102, 102], 3),
  ([115, 110, 111, 109, 97, 103, 105, 99], 3), ([115, 110, 111, 114, 101, 109, 97, 112], 4),
  ([115, 110, 111, 114, 101, 109, 101, 110, 117], 7), ([115, 111, 114, 116], 3),
  ([115, 111, 117, 114, 99, 101], 2), ([115, 112, 101, 108, 108, 100, 117, 109, 112], 6),
  ([115, 112, 101, 108, 108, 103, 111, 111, 100], 3), ([115, 112, 101, 108, 108, 105, 110, 102, 111], 6),
  ([115, 112, 101, 108, 108, 114, 101, 112, 97, 108, 108], 6),
  ([115, 112, 101, 108, 108, 117, 110, 100, 111], 6),
  ([115, 112, 101, 108, 108, 119, 114, 111, 110, 103], 6), ([115, 112, 108, 105, 116], 2),
  ([115, 112, 114, 101, 118, 105, 111, 117, 115], 3), ([115, 114, 101, 119, 105, 110, 100], 3),
  ([115, 116, 111, 112], 2), ([115, 116, 97, 103], 3),
  ([115, 116, 97, 114, 116, 105, 110, 115, 101, 114, 116], 4),
  ([115, 116, 97, 114, 116, 103, 114, 101, 112, 108, 97, 99, 101], 6),
  ([115, 116, 97, 114, 116, 114, 101, 112, 108, 97, 99, 101], 6),
  ([115, 116, 111, 112, 105, 110, 115, 101, 114, 116], 5), ([115, 116, 106, 117, 109, 112], 3),
  ([115, 116, 115, 101, 108, 101, 99, 116], 3), ([115, 117, 110, 104, 105, 100, 101], 3),
  ([115, 117, 110, 109, 97, 112], 4), ([115, 117, 110, 109, 101, 110, 117], 5),
  ([115, 117, 115, 112, 101, 110, 100], 3), ([115, 118, 105, 101, 119], 2),
  ([115, 119, 97, 112, 110, 97, 109, 101], 2), ([115, 121, 110, 116, 97, 120], 2),
  ([115, 121, 110, 116, 105, 109, 101], 5), ([115, 121, 110, 99, 98, 105, 110, 100], 4), ([116], 1),
  ([116, 78, 101, 120, 116], 2), ([116, 97, 98, 78, 101, 120, 116], 4),
  ([116, 97, 98, 99, 108, 111, 115, 101], 4), ([116, 97, 98, 100, 111], 4),
  ([116, 97, 98, 101, 100, 105, 116], 4), ([116, 97, 98, 102, 105, 110, 100], 4),
  ([116, 97, 98, 102, 105, 114, 115, 116], 6), ([116, 97, 98, 108, 97, 115, 116], 4),
  ([116, 97, 98, 109, 111, 118, 101], 4), ([116, 97, 98, 110, 101, 119], 6),
  ([116, 97, 98, 110, 101, 120, 116], 4), ([116, 97, 98, 111, 110, 108, 121], 4),
  ([116, 97, 98, 112, 114, 101, 118, 105, 111, 117, 115], 4),
  ([116, 97, 98, 114, 101, 119, 105, 110, 100], 4), ([116, 97, 98, 115], 4), ([116, 97, 98], 3),
  ([116, 97, 103], 2), ([116, 97, 103, 115], 4), ([116, 99, 108], 2), ([116, 99, 108, 100, 111], 4),
  ([116, 99, 108, 102, 105, 108, 101], 4), ([116, 101, 97, 114, 111, 102, 102], 2),
  ([116, 102, 105, 114, 115, 116], 2), ([116, 104, 114, 111, 119], 2), ([116, 106, 117, 109, 112], 2),
  ([116, 108, 97, 115, 116], 2), ([116, 109, 101, 110, 117], 2), ([116, 110, 101, 120, 116], 2),
  ([116, 111, 112, 108, 101, 102, 116], 2), ([116, 112, 114, 101, 118, 105, 111, 117, 115], 2),
  ([116, 114, 101, 119, 105, 110, 100], 2), ([116, 114, 121], 3), ([116, 115, 101, 108, 101, 99, 116], 2),
  ([116, 117, 110, 109, 101, 110, 117], 2), ([117, 110, 100, 111], 1),
  ([117, 110, 100, 111, 106, 111, 105, 110], 5), ([117, 110, 100, 111, 108, 105, 115, 116], 5),
  ([117, 110, 97, 98, 98, 114, 101, 118, 105, 97, 116, 101], 3), ([117, 110, 104, 105, 100, 101], 3),
  ([117, 110, 108, 101, 116], 3), ([117, 110, 108, 111, 99, 107, 118, 97, 114], 4),
  ([117, 110, 109, 97, 112], 3), ([117, 110, 109, 101, 110, 117], 4),
  ([117, 110, 115, 105, 108, 101, 110, 116], 3), ([117, 112, 100, 97, 116, 101], 2),
  ([118, 103, 108, 111, 98, 97, 108], 1), ([118, 101, 114, 115, 105, 111, 110], 2),
  ([118, 101, 114, 98, 111, 115, 101], 4), ([118, 101, 114, 116, 105, 99, 97, 108], 4),
  ([118, 105, 109, 103, 114, 101, 112], 3), ([118, 105, 109, 103, 114, 101, 112, 97, 100, 100], 8),
  ([118, 105, 115, 117, 97, 108], 2), ([118, 105, 117, 115, 97, 103, 101], 3), ([118, 105, 101, 119], 3),
  ([118, 109, 97, 112], 2), ([118, 109, 97, 112, 99, 108, 101, 97, 114], 5),
  ([118, 109, 101, 110, 117], 3), ([118, 110, 101, 119], 3), ([118, 110, 111, 114, 101, 109, 97, 112], 2),
  ([118, 110, 111, 114, 101, 109, 101, 110, 117], 7), ([118, 115, 112, 108, 105, 116], 2),
  ([118, 117, 110, 109, 97, 112], 2), ([118, 117, 110, 109, 101, 110, 117], 5),
  ([119, 105, 110, 100, 111], 5), ([119, 114, 105, 116, 101], 1), ([119, 78, 101, 120, 116], 2),
  ([119, 97, 108, 108], 2), ([119, 104, 105, 108, 101], 2), ([119, 105, 110, 115, 105, 122, 101], 2),
  ([119, 105, 110, 99, 109, 100], 4), ([119, 105, 110, 112, 111, 115], 4), ([119, 110, 101, 120, 116], 2),
  ([119, 112, 114, 101, 118, 105, 111, 117, 115], 2), ([119, 113], 2), ([119, 113, 97, 108, 108], 3),
  ([119, 115, 118, 101, 114, 98], 2), ([119, 117, 110, 100, 111], 2),
  ([119, 118, 105, 109, 105, 110, 102, 111], 2), ([120, 105, 116], 1), ([120, 97, 108, 108], 2),
  ([120, 109, 97, 112, 99, 108, 101, 97, 114], 5), ([120, 109, 97, 112], 2),
  ([120, 109, 101, 110, 117], 3), ([120, 110, 111, 114, 101, 109, 97, 112], 2),
  ([120, 110, 111, 114, 101, 109, 101, 110, 117], 7), ([120, 117, 110, 109, 97, 112], 2),
  ([120, 117, 110, 109, 101, 110, 117], 5), ([121, 97, 110, 107], 1), ([122], 1), ([33], 1), ([35], 1),
  ([38], 1), ([42], 1), ([60], 1), ([61], 1), ([62], 1), ([64], 1), ([78, 101, 120, 116], 1),
  ([80, 114, 105, 110, 116], 1), ([88], 1), ([126], 1), ([99, 98, 111, 116, 116, 111, 109], 3),
  ([99, 100, 111], 3), ([99, 102, 100, 111], 3), ([99, 104, 105, 115, 116, 111, 114, 121], 3),
  ([99, 108, 101, 97, 114, 106, 117, 109, 112, 115], 3), ([102, 105, 108, 116, 101, 114], 4),
  ([104, 101, 108, 112, 99, 108, 111, 115, 101], 5), ([108, 98, 111, 116, 116, 111, 109], 3),
  ([108, 100, 111], 2), ([108, 102, 100, 111], 3), ([108, 104, 105, 115, 116, 111, 114, 121], 3),
  ([108, 108, 105, 115, 116], 3), ([110, 111, 115, 119, 97, 112, 102, 105, 108, 101], 3),
  ([112, 97, 99, 107, 97, 100, 100], 2), ([112, 97, 99, 107, 108, 111, 97, 100, 97, 108, 108], 5),
  ([115, 109, 105, 108, 101], 3), ([112, 121, 120], 3), ([112, 121, 120, 100, 111], 4),
  ([112, 121, 116, 104, 111, 110, 120], 7), ([112, 121, 120, 102, 105, 108, 101], 4),
  ([116, 101, 114, 109, 105, 110, 97, 108], 3), ([116, 109, 97, 112], 3),
  ([116, 109, 97, 112, 99, 108, 101, 97, 114], 5), ([116, 110, 111, 114, 101, 109, 97, 112], 3),
  ([116, 117, 110, 109, 97, 112], 5), ([99, 97, 98, 111, 118, 101], 4), ([99, 97, 102, 116, 101, 114], 3),
  ([99, 98, 101, 102, 111, 114, 101], 3), ([99, 98, 101, 108, 111, 119], 4), ([99, 111, 110, 115, 116], 4),
  ([108, 97, 98, 111, 118, 101], 3), ([108, 97, 102, 116, 101, 114], 3),
  ([108, 98, 101, 102, 111, 114, 101], 3), ([108, 98, 101, 108, 111, 119], 4),
  ([114, 101, 100, 114, 97, 119, 116, 97, 98, 108, 105, 110, 101], 7),
  ([115, 99, 114, 105, 112, 116, 118, 101, 114, 115, 105, 111, 110], 7), ([116, 99, 100], 2),
  ([116, 99, 104, 100, 105, 114], 3), ([116, 108, 109, 101, 110, 117], 3),
  ([116, 108, 110, 111, 114, 101, 109, 101, 110, 117], 3), ([116, 108, 117, 110, 109, 101, 110, 117], 3),
  ([120, 114, 101, 115, 116, 111, 114, 101], 2), ([100, 101, 102], 3),
  ([100, 105, 115, 97, 115, 115, 101, 109, 98, 108, 101], 4), ([101, 110, 100, 100, 101, 102], 4),
  ([101, 120, 112, 111, 114, 116], 3), ([105, 109, 112, 111, 114, 116], 3),
  ([115, 112, 101, 108, 108, 114, 97, 114, 101], 7), ([118, 105, 109, 57, 115, 99, 114, 105, 112, 116], 4)]

theorem codes_eq : (builtinCommands.map fun c => (c.name.map Char.toNat, c.minlen)) = codes := by decide +kernel

/-- The first `n` items exist and agree. -/
def samePre : Nat → List Nat → List Nat → Bool
  | 0, _, _ => true
  | n + 1, a :: as, b :: bs => Nat.beq a b && samePre n as bs
  | _, _, _ => false

/-- No text abbreviates both, unless they have the same name or are `tcl` and `tcd`. -/
def pairOK (x c : List Nat × Nat) : Bool :=
  !samePre (max x.2 c.2) x.1 c.1 || x.1 == c.1 || (c.1 == [116, 99, 100] && x.1 == [116, 99, 108])

def pairsOK : List (List Nat × Nat) → Bool
  | [] => true
  | x :: l => l.all (pairOK x) && pairsOK l

theorem pairsOK_codes : pairsOK codes = true := by decide +kernel

theorem samePre_of {x y m : List Nat} {k : Nat} (hx : m <+: x) (hy : m <+: y) (hk : k ≤ m.length) :
    samePre k x y = true := by
  obtain ⟨x, rfl⟩ := hx
  obtain ⟨y, rfl⟩ := hy
  induction m generalizing k with
  | nil =>
    obtain rfl : k = 0 := by simpa using hk
    unfold samePre
    rfl
  | cons a m ih =>
    cases k with
    | zero => unfold samePre; rfl
    | succ k =>
      simp only [List.cons_append, samePre, Bool.and_eq_true]
      exact ⟨Nat.beq_refl a, ih (by simpa using hk)⟩

theorem toNat_inj {a b : Str} (h : a.map Char.toNat = b.map Char.toNat) : a = b := by
  induction a generalizing b with
  | nil => cases b with
    | nil => rfl
    | cons => cases h
  | cons c a ih =>
    cases b with
    | nil => cases h
    | cons d b =>
      simp only [List.map_cons, List.cons.injEq] at h
      rw [ih h.2, Char.toNat_inj.1 h.1]

theorem pairsOK_pair {l : List (List Nat × Nat)} (h : pairsOK l = true) {a b : List (List Nat × Nat)}
    {x : List Nat × Nat} (hl : l = a ++ x :: b) {c : List Nat × Nat} (hc : c ∈ b) : pairOK x c = true := by
  induction a generalizing l with
  | nil =>
    subst hl
    simp only [List.nil_append, pairsOK, Bool.and_eq_true, List.all_eq_true] at h
    exact h.1 c hc
  | cons y a ih =>
    subst hl
    simp only [List.cons_append, pairsOK, Bool.and_eq_true] at h
    exact ih h.2 rfl

/-- The first entry that a text abbreviates has the name of any other such entry, but for `tc`. -/
theorem firstOf_name {n : Str} {c d : Cmd} (hc : c ∈ builtinCommands) (hn : Abbrev n c)
    (hd : FirstOf builtinCommands n d) :
    d.name = c.name ∨ c.name = cs!"tcd" ∧ d.name = cs!"tcl" := by
  obtain ⟨a, b, e, hnd, hna⟩ := hd
  have hc' : c ∈ a ∨ c = d ∨ c ∈ b := by
    rw [e] at hc
    simpa using hc
  rcases hc' with h | rfl | h
  · exact absurd hn (hna c h)
  · exact .inl rfl
  · have hp := pairsOK_pair pairsOK_codes (by rw [← codes_eq, e, List.map_append, List.map_cons]) (List.mem_map_of_mem h)
    unfold pairOK at hp
    rw [samePre_of (m := n.map Char.toNat) (hnd.1.map _) (hn.1.map _) (by
      rw [List.length_map]; exact Nat.max_le.2 ⟨hnd.2, hn.2⟩)] at hp
    simp only [Bool.not_true, Bool.false_or, Bool.or_eq_true, Bool.and_eq_true, beq_iff_eq] at hp
    rcases hp with hp | ⟨h1, h2⟩
    · exact .inl (toNat_inj hp)
    · exact .inr ⟨toNat_inj h1, toNat_inj h2⟩

end Viml
