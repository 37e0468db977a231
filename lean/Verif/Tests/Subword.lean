import Verif.Model.Subword

namespace FF

/-! ## Conformance tests (values from the unit tests in /repo; tests, not proofs) -/

/-- Insert into a sorted list. -/
def insertNat (a : Nat) : List Nat → List Nat
  | [] => [a]
  | b :: bs => if a ≤ b then a :: b :: bs else b :: insertNat a bs

/-- Sorted indices, for comparing with the unit tests. -/
def sortedIndices {I : Type} [Indexer I] (ix : Res I) (s : String) (minN maxN : Nat) : Res (List Nat) := do
  let ix ← ix
  let l ← subwordIndices ix s.toList minN maxN
  return l.foldr insertNat []

-- src/subword.rs:589-606
example : sortedIndices (HashIndexer.new 21) "<Daniël>" 3 6 = .ok
  [214157, 233912, 311961, 488897, 620206, 741276, 841219, 1167494, 1192256, 1489905, 1532271,
   1644730, 1666166, 1679745, 1680294, 1693100, 2026735, 2065822] := by decide +kernel
example : sortedIndices (HashIndexer.new 2) "<hallo>" 3 6 = .ok
  [0, 0, 0, 0, 1, 1, 1, 2, 3, 3, 3, 3, 3, 3] := by decide +kernel
-- src/compat/fasttext/indexer.rs:97-103
example : sortedIndices (FastTextIndexer.new 2000000) "<Daniël>" 3 6 = .ok
  [69886, 84537, 338340, 441697, 448390, 468430, 504093, 573175, 749365, 804851, 811506, 991985,
   1022467, 1105725, 1249224, 1418443, 1493412, 1880616] := by decide +kernel
-- src/subword.rs:548-556
example : (ngrams "ˈjəp".toList 3 6).map (·.map (·.inner)) =
  .ok ["ˈjəp".toList, "ˈjə".toList, "jəp".toList] := by decide +kernel

end FF
