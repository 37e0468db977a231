import Verif.Model.Overflow
import Verif.Props.Mmap
import Verif.Props.WordSize
import Verif.Props.TextExact
import Verif.Props.Convert

/-!
# Memory safety of maps, and builds without overflow checks (C95, C96)
-/

namespace FF

open Rd Res

/-! ## The model with checks -/

theorem arith_le {b : Build} {n : Nat} (h : n ≤ usizeMax) : b.arith n = .ok n := if_pos h

theorem arith_checked_gt {n : Nat} (h : ¬n ≤ usizeMax) : Build.checked.arith n = .panic := if_neg h

theorem arith_unchecked (n : Nat) : Build.unchecked.arith n = .ok (n % 2 ^ 64) := by
  unfold Build.arith
  split
  · next h =>
    rw [Nat.mod_eq_of_lt]
    have : usizeMax = 2 ^ 64 - 1 := rfl
    omega
  · rfl

theorem lift_ok_bind {α β : Type} (a : α) (f : α → Rd β) : (lift (.ok a) >>= f) = f a := rfl

theorem mmapNdArrayIn_checked : mmapNdArrayIn .checked = mmapNdArray := by
  unfold mmapNdArrayIn mmapNdArray
  congr 1
  funext x
  obtain ⟨rows, cols⟩ := x
  dsimp only
  by_cases h : rows * cols * 4 ≤ usizeMax
  · rw [arith_le (by omega), lift_ok_bind, arith_le h, decide_eq_true h]
    rfl
  · rw [decide_eq_false h]
    by_cases h' : rows * cols ≤ usizeMax
    · rw [arith_le h', lift_ok_bind, arith_checked_gt h]
      rfl
    · rw [arith_checked_gt h']
      rfl

theorem mmapQuantizedArrayIn_checked : mmapQuantizedArrayIn .checked = mmapQuantizedArray := by
  unfold mmapQuantizedArrayIn mmapQuantizedArray
  congr 1
  funext x
  obtain ⟨r, norms⟩ := x
  dsimp only
  by_cases h : r.nEmbeddings * r.quantizer.quantizedLen ≤ usizeMax
  · rw [arith_le h, decide_eq_true h]; rfl
  · rw [arith_checked_gt h, decide_eq_false h]; rfl

/-! ## C95 -/

/-- Specification: `n` bytes from `start` are bytes of a region of `len` bytes. -/
def InRegion (len : Nat) (r : Nat × Nat) : Prop := r.2 = 0 ∨ r.1 + r.2 ≤ len

theorem mmapNdArrayIn_ok {b : Build} {d : Bytes} {pos p : Nat} {a : MmapArray} (h : mmapNdArrayIn b d pos = .ok (a, p)) :
    a.map.len = a.nRows * a.cols * 4 % 2 ^ 64 ∧ a.map.len ≤ isizeMax ∧
      (b = .checked → a.nRows * a.cols * 4 < 2 ^ 64) := by
  unfold mmapNdArrayIn at h
  obtain ⟨⟨rows, cols⟩, p1, hh, h⟩ := Rd.bind_ok.mp h
  dsimp only at h
  obtain ⟨size, p2, h1, h⟩ := Rd.bind_ok.mp h
  obtain ⟨len, p3, h2, h⟩ := Rd.bind_ok.mp h
  obtain ⟨mp, p4, hm, h3⟩ := Rd.bind_ok.mp h
  cases h3
  obtain ⟨h1, rfl⟩ := Rd.lift_ok.mp h1
  obtain ⟨h2, rfl⟩ := Rd.lift_ok.mp h2
  have hmax : usizeMax = 2 ^ 64 - 1 := rfl
  have hlen : len ≤ isizeMax := by
    unfold mapRegion at hm
    split at hm
    · assumption
    · cases hm
  obtain ⟨rfl, -⟩ := mapRegion_ok hm
  dsimp only
  cases b with
  | checked =>
    by_cases h : rows * cols ≤ usizeMax
    · rw [arith_le h] at h1
      cases h1
      by_cases h' : rows * cols * 4 ≤ usizeMax
      · rw [arith_le h'] at h2
        cases h2
        exact ⟨(Nat.mod_eq_of_lt (by omega)).symm, hlen, fun _ => by omega⟩
      · rw [arith_checked_gt h'] at h2; cases h2
    · rw [arith_checked_gt h] at h1; cases h1
  | unchecked =>
    rw [arith_unchecked] at h1 h2
    cases h1
    cases h2
    exact ⟨by rw [Nat.mod_mul_mod], hlen, fun h => by cases h⟩

/-- A row of a matrix lies in it. -/
theorem row_end_le {i rows w : Nat} (h : i < rows) : i * w + w ≤ rows * w := by
  have := Nat.mul_le_mul_right w (show i + 1 ≤ rows from h)
  rwa [Nat.add_mul, Nat.one_mul] at this

/-- C95, dense matrices: if the number of bytes of the matrix that the file announces fits into 64 bits, looking up a row only
loads bytes of the map. In builds with overflow checks, matrices for which it does not fit are never mapped. -/
theorem c95_partial (b : Build) (d : Bytes) (pos p : Nat) (a : MmapArray) (h : mmapNdArrayIn b d pos = .ok (a, p))
    (hb : b = .checked ∨ a.nRows * a.cols * 4 < 2 ^ 64) :
    ∀ i r, a.loads i = some r → InRegion a.map.len r := by
  obtain ⟨hlen, -, hc⟩ := mmapNdArrayIn_ok h
  have hfit : a.nRows * a.cols * 4 < 2 ^ 64 := hb.elim hc id
  rw [Nat.mod_eq_of_lt hfit] at hlen
  intro i r hr
  unfold MmapArray.loads at hr
  split at hr
  · next hi =>
    cases hr
    have h1 := row_end_le (w := a.cols * 4) hi
    rw [← Nat.mul_assoc, ← Nat.mul_assoc] at h1
    right
    dsimp only
    rw [hlen]
    have := Nat.mod_le (i * a.cols * 4) (2 ^ 64)
    omega
  · cases hr

/-- C95, dense matrices in builds without overflow checks: a mapped matrix can be looked up without leaving the map exactly if
its size in bytes fits into 64 bits. -/
theorem c95_exact (d : Bytes) (pos p : Nat) (a : MmapArray) (h : mmapNdArrayIn .unchecked d pos = .ok (a, p)) :
    (∀ i r, a.loads i = some r → InRegion a.map.len r) ↔ a.nRows * a.cols * 4 < 2 ^ 64 := by
  refine ⟨fun hall => ?_, fun hfit => c95_partial _ d pos p a h (.inr hfit)⟩
  obtain ⟨hlen, hmax, -⟩ := mmapNdArrayIn_ok h
  apply Classical.byContradiction
  intro hbig
  have hc : 0 < a.cols := by
    rcases Nat.eq_zero_or_pos a.cols with h0 | h0
    · rw [h0] at hbig; simp at hbig
    · exact h0
  have him : isizeMax = 2 ^ 63 - 1 := rfl
  -- the first row that ends behind the end of the map
  let i := a.map.len / (a.cols * 4)
  have hpos : 0 < a.cols * 4 := by omega
  have h1 : i * (a.cols * 4) ≤ a.map.len := Nat.div_mul_le_self _ _
  have h2 : a.map.len < i * (a.cols * 4) + a.cols * 4 := by
    have := Nat.lt_div_mul_add (a := a.map.len) hpos
    exact this
  have hi : i < a.nRows := by
    apply Classical.byContradiction
    intro hge
    have := Nat.mul_le_mul_right (a.cols * 4) (show a.nRows ≤ i by omega)
    rw [← Nat.mul_assoc] at this
    omega
  rcases hall i (i * a.cols * 4 % 2 ^ 64, a.cols * 4) (by unfold MmapArray.loads; rw [if_pos hi]) with h0 | hin
  · dsimp only at h0; omega
  · dsimp only at hin
    rw [Nat.mul_assoc, Nat.mod_eq_of_lt (by omega)] at hin
    omega

/-- C95, alignment: in both builds the map of a dense matrix begins at a multiple of four bytes of the file, so that, pages being
larger, every row is aligned for `f32`. -/
theorem c95_aligned (b : Build) (d : Bytes) (pos p : Nat) (a : MmapArray) (h : mmapNdArrayIn b d pos = .ok (a, p)) :
    a.map.off % 4 = 0 := by
  unfold mmapNdArrayIn at h
  obtain ⟨⟨rows, cols⟩, p1, hh, h⟩ := Rd.bind_ok.mp h
  dsimp only at h
  obtain ⟨size, p2, h1, h⟩ := Rd.bind_ok.mp h
  obtain ⟨len, p3, h2, h⟩ := Rd.bind_ok.mp h
  obtain ⟨mp, p4, hm, h3⟩ := Rd.bind_ok.mp h
  cases h3
  obtain ⟨-, rfl⟩ := Rd.lift_ok.mp h1
  obtain ⟨-, rfl⟩ := Rd.lift_ok.mp h2
  obtain ⟨rfl, -⟩ := mapRegion_ok hm
  dsimp only
  unfold readNdArrayHead at hh
  obtain ⟨_, q1, -, hh⟩ := Rd.bind_ok.mp hh
  obtain ⟨_, q2, -, hh⟩ := Rd.bind_ok.mp hh
  obtain ⟨_, q3, -, hh⟩ := Rd.bind_ok.mp hh
  obtain ⟨_, q4, -, hh⟩ := Rd.bind_ok.mp hh
  obtain ⟨_, q5, -, hh⟩ := Rd.bind_ok.mp hh
  obtain ⟨q, q6, hq, hh⟩ := Rd.bind_ok.mp hh
  obtain ⟨_, q7, hs, hh⟩ := Rd.bind_ok.mp hh
  cases hh
  cases hq
  cases hs
  unfold padding
  omega

/-- C95, quantized matrices: in both builds, looking up a row only loads bytes of the map. -/
theorem c95_quantized (b : Build) (d : Bytes) (pos p : Nat) (a : MmapQuantizedArray)
    (_ : mmapQuantizedArrayIn b d pos = .ok (a, p)) :
    ∀ i r, a.loads i = some r → InRegion a.codes.len r := by
  intro i r hr
  unfold MmapQuantizedArray.loads at hr
  split at hr
  · next hi =>
    cases hr
    right
    dsimp only
    have h1 := row_end_le (w := a.quantizer.quantizedLen) hi
    have h2 : a.nRows * a.quantizer.quantizedLen ≤ a.codes.len := Nat.div_mul_le_self _ _
    have := Nat.mod_le (i * a.quantizer.quantizedLen) (2 ^ 64)
    omega
  · cases hr

/-- C95, the places of rows: under the condition of `c95_partial` the rows of a dense matrix lie one behind the other in the
map, so that no two rows share bytes; every row of the matrix has its place, and there are no other rows. -/
theorem c95_rows (b : Build) (d : Bytes) (pos p : Nat) (a : MmapArray) (h : mmapNdArrayIn b d pos = .ok (a, p))
    (hb : b = .checked ∨ a.nRows * a.cols * 4 < 2 ^ 64) (i : Nat) :
    (i < a.nRows → a.loads i = some (i * (4 * a.cols), 4 * a.cols)) ∧ (a.nRows ≤ i → a.loads i = none) := by
  obtain ⟨-, -, hc⟩ := mmapNdArrayIn_ok h
  have hfit : a.nRows * a.cols * 4 < 2 ^ 64 := hb.elim hc id
  unfold MmapArray.loads
  refine ⟨fun hi => ?_, fun hi => if_neg (by omega)⟩
  have h1 := row_end_le (w := a.cols * 4) hi
  rw [← Nat.mul_assoc, ← Nat.mul_assoc] at h1
  rw [if_pos hi, Nat.mod_eq_of_lt (by omega), Nat.mul_comm 4 a.cols, Nat.mul_assoc]

/-- C95, the places of rows of quantized matrices, in both builds. -/
theorem c95_quantized_rows (b : Build) (d : Bytes) (pos p : Nat) (a : MmapQuantizedArray)
    (h : mmapQuantizedArrayIn b d pos = .ok (a, p)) (i : Nat) :
    (i < a.nRows → a.loads i = some (i * a.quantizer.quantizedLen, a.quantizer.quantizedLen)) ∧
      (a.nRows ≤ i → a.loads i = none) := by
  have hlen : a.codes.len ≤ isizeMax := by
    unfold mmapQuantizedArrayIn at h
    obtain ⟨⟨r, norms⟩, p1, -, h⟩ := Rd.bind_ok.mp h
    dsimp only at h
    obtain ⟨len, p2, -, h⟩ := Rd.bind_ok.mp h
    obtain ⟨mp, p3, hm, h3⟩ := Rd.bind_ok.mp h
    cases h3
    have hl : len ≤ isizeMax := by
      unfold mapRegion at hm
      split at hm
      · assumption
      · cases hm
    obtain ⟨rfl, -⟩ := mapRegion_ok hm
    exact hl
  have him : isizeMax = 2 ^ 63 - 1 := rfl
  unfold MmapQuantizedArray.loads
  refine ⟨fun hi => ?_, fun hi => if_neg (by omega)⟩
  have h1 := row_end_le (w := a.quantizer.quantizedLen) hi
  have h2 : a.nRows * a.quantizer.quantizedLen ≤ a.codes.len := Nat.div_mul_le_self _ _
  rw [if_pos hi, Nat.mod_eq_of_lt (by omega)]

/-- The head of a dense chunk that announces 2^62 + 1 rows of one column, and one float. -/
def exampleHuge : Bytes := leBytes 4 2 ++ leBytes 8 0 ++ leBytes 8 (2 ^ 62 + 1) ++ leBytes 4 1 ++ leBytes 4 10 ++
  leBytes 4 0 ++ leBytes 4 7

/-- C95 is false in builds without overflow checks: a file of 36 bytes is mapped as a matrix with 2^62 + 1 rows on a map of
four bytes, and looking up row 1 loads the four bytes behind the map. -/
theorem c95_false : ∃ (d : Bytes) (a : MmapArray) (p : Nat), mmapNdArrayIn .unchecked d 0 = .ok (a, p) ∧ d.length = 36 ∧
    p = 36 ∧ ∃ i r, a.loads i = some r ∧ ¬InRegion a.map.len r := by
  refine ⟨exampleHuge, ⟨⟨exampleHuge, 32, 4⟩, 2 ^ 62 + 1, 1⟩, 36, by decide +kernel, by decide +kernel, rfl, 1,
    (4, 4), by decide +kernel, ?_⟩
  rintro (h | h) <;> simp at h

/-- A mapped matrix of two rows, its lookups, and the matrix of `exampleHuge` which has another one outside. -/
example : mmapNdArrayIn .unchecked (writeNdArray ⟨2, [[1, 2], [3, 4]]⟩ 0).bytes 0 =
      .ok (⟨⟨(writeNdArray ⟨2, [[1, 2], [3, 4]]⟩ 0).bytes, 32, 16⟩, 2, 2⟩, 48) ∧
    (⟨⟨(writeNdArray ⟨2, [[1, 2], [3, 4]]⟩ 0).bytes, 32, 16⟩, 2, 2⟩ : MmapArray).loads 1 = some (8, 8) ∧
    mmapNdArrayIn .checked exampleHuge 0 = .panic := by
  refine ⟨by decide +kernel, by decide +kernel, by decide +kernel⟩

example : ∃ a p, mmapQuantizedArrayIn .unchecked (writeChunk exampleQuantized 0).bytes 0 = .ok (a, p) ∧
    a.nRows = exampleQuantized.codes.nrows := by
  obtain ⟨r, hr, h⟩ := Res.map_eq_ok.mp (show (mmapQuantizedArrayIn .unchecked (writeChunk exampleQuantized 0).bytes 0).map
    (fun r => r.1.nRows) = .ok exampleQuantized.codes.nrows by decide +kernel)
  exact ⟨r.1, r.2, hr, h⟩

/-- `c95_partial`, `c95_exact` and `c95_aligned` applied to a matrix of two rows. -/
example := c95_partial .unchecked (writeNdArray ⟨2, [[1, 2], [3, 4]]⟩ 0).bytes 0 48
  ⟨⟨(writeNdArray ⟨2, [[1, 2], [3, 4]]⟩ 0).bytes, 32, 16⟩, 2, 2⟩ (by decide +kernel) (.inr (by decide)) 1 (8, 8)
  (by decide +kernel)
example := c95_exact (writeNdArray ⟨2, [[1, 2], [3, 4]]⟩ 0).bytes 0 48
  ⟨⟨(writeNdArray ⟨2, [[1, 2], [3, 4]]⟩ 0).bytes, 32, 16⟩, 2, 2⟩ (by decide +kernel)
example := c95_aligned .unchecked (writeNdArray ⟨2, [[1, 2], [3, 4]]⟩ 0).bytes 0 48
  ⟨⟨(writeNdArray ⟨2, [[1, 2], [3, 4]]⟩ 0).bytes, 32, 16⟩, 2, 2⟩ (by decide +kernel)
/-- `c95_quantized` applied to a written chunk. -/
example : ∃ a p, mmapQuantizedArrayIn .unchecked (writeChunk exampleQuantized 0).bytes 0 = .ok (a, p) ∧
    ∀ i r, a.loads i = some r → InRegion a.codes.len r := by
  obtain ⟨r, hr, h⟩ := Res.map_eq_ok.mp (show (mmapQuantizedArrayIn .unchecked (writeChunk exampleQuantized 0).bytes 0).map
    (fun r => r.1.nRows) = .ok exampleQuantized.codes.nrows by decide +kernel)
  exact ⟨r.1, r.2, hr, c95_quantized _ _ _ _ _ hr⟩

/-- `c95_rows` applied to a matrix of two rows. -/
example : (⟨⟨(writeNdArray ⟨2, [[1, 2], [3, 4]]⟩ 0).bytes, 32, 16⟩, 2, 2⟩ : MmapArray).loads 1 = some (8, 8) :=
  (c95_rows .unchecked (writeNdArray ⟨2, [[1, 2], [3, 4]]⟩ 0).bytes 0 48
    ⟨⟨(writeNdArray ⟨2, [[1, 2], [3, 4]]⟩ 0).bytes, 32, 16⟩, 2, 2⟩ (by decide +kernel) (.inr (by decide)) 1).1 (by decide)
/-- `c95_quantized_rows` applied to a written chunk. -/
example : ∃ a p, mmapQuantizedArrayIn .unchecked (writeChunk exampleQuantized 0).bytes 0 = .ok (a, p) ∧ 1 < a.nRows ∧
    a.loads 1 = some (1 * a.quantizer.quantizedLen, a.quantizer.quantizedLen) := by
  obtain ⟨r, hr, h⟩ := Res.map_eq_ok.mp (show (mmapQuantizedArrayIn .unchecked (writeChunk exampleQuantized 0).bytes 0).map
    (fun r => decide (1 < r.1.nRows)) = .ok true by decide +kernel)
  exact ⟨r.1, r.2, hr, of_decide_eq_true h, (c95_quantized_rows _ _ _ _ _ hr 1).1 (of_decide_eq_true h)⟩

/-! ## C96 -/

/-- Specification: the second outcome is the same as the first, unless the first is a panic. -/
def SameUnlessPanic {α : Type} (p q : Res α) : Prop := p = .panic ∨ q = p

namespace SameUnlessPanic
variable {α β : Type}

theorem refl (p : Res α) : SameUnlessPanic p p := .inr rfl

theorem bind {p q : Res α} {f g : α → Res β} (h : SameUnlessPanic p q) (hf : ∀ a, SameUnlessPanic (f a) (g a)) :
    SameUnlessPanic (p.bind f) (q.bind g) := by
  rcases h with rfl | rfl
  · exact .inl rfl
  · cases q with
    | ok a => exact hf a
    | err e => exact .inr rfl
    | panic => exact .inl rfl

theorem arith (n : Nat) : SameUnlessPanic (Build.checked.arith n) (Build.unchecked.arith n) := by
  by_cases h : n ≤ usizeMax
  · exact .inr (by rw [arith_le h, arith_le h])
  · exact .inl (arith_checked_gt h)

theorem mapM {f g : α → Res β} (h : ∀ a, SameUnlessPanic (f a) (g a)) (l : List α) :
    SameUnlessPanic (l.mapM f) (l.mapM g) := by
  induction l with
  | nil => exact refl _
  | cons a l ih =>
    rw [List.mapM_cons, List.mapM_cons]
    exact bind (h a) fun _ => bind ih fun _ => refl _

theorem rd {p q : Rd α} {f g : α → Rd β} (h : ∀ d pos, SameUnlessPanic (p d pos) (q d pos))
    (hf : ∀ a d pos, SameUnlessPanic (f a d pos) (g a d pos)) (d : Bytes) (pos : Nat) :
    SameUnlessPanic ((p >>= f) d pos) ((q >>= g) d pos) := by
  rw [bind_apply, bind_apply]
  exact bind (h d pos) fun r => hf r.1 d r.2

theorem lift {p q : Res α} (h : SameUnlessPanic p q) (d : Bytes) (pos : Nat) :
    SameUnlessPanic (Rd.lift p d pos) (Rd.lift q d pos) := by
  rcases h with rfl | rfl
  · exact .inl rfl
  · exact refl _

end SameUnlessPanic

theorem upperBoundIn_checked (ix : HashIndexer) : ix.upperBoundIn .checked = Indexer.upperBound ix := rfl

theorem newIn_checked (ws : List Str) (m M : Nat) (ix : HashIndexer) :
    SubwordVocab.newIn .checked ws m M ix = SubwordVocab.new ws m M ix := rfl

theorem readBucketedIn_checked : readBucketedIn .checked = (readChunk : Rd BucketSubwordVocab) := rfl

theorem ngramIndicesCapacityIn_checked {I : Type} [Indexer I] (v : SubwordVocab I) (w : Str) :
    v.ngramIndicesCapacityIn .checked w = v.ngramIndicesCapacity w := by
  have h : ∀ it : NGrams, it.sizeHintIn .checked = it.sizeHint64 := by
    intro it
    unfold NGrams.sizeHintIn NGrams.sizeHint64
    by_cases h : it.sizeHint ≤ usizeMax
    · rw [arith_le h, decide_eq_true h]; rfl
    · rw [arith_checked_gt h, decide_eq_false h]; rfl
  unfold SubwordVocab.ngramIndicesCapacityIn SubwordVocab.ngramIndicesCapacity NGramsIndicesIter.sizeHint64
  simp only [h]
  rfl

theorem allocTableIn_checked (shape : Option (Nat × Nat)) : allocTableIn .checked shape = Embeddings.allocTable shape := by
  cases shape with
  | none => rfl
  | some s =>
    obtain ⟨n, k⟩ := s
    have him : isizeMax = 2 ^ 63 - 1 := rfl
    have hum : usizeMax = 2 ^ 64 - 1 := rfl
    show (Res.assert _).bind _ = (Res.assert _).bind _
    congr 1
    funext _
    by_cases h : n * k ≤ usizeMax
    · rw [arith_le h]; rfl
    · rw [arith_checked_gt h]
      show Res.panic = Res.assert _
      rw [decide_eq_false (by omega)]; rfl

section
variable {T F : Type} [FloatText F]

theorem readTextDimsRawIn_checked (lossy : Bool) (d : Bytes) (pos : Nat) :
    (Embeddings.readTextDimsRawIn .checked lossy d pos : Res (Embeddings T SimpleVocab (NdArray F) F)) =
      Embeddings.readTextDimsRaw lossy d pos := by
  unfold Embeddings.readTextDimsRawIn Embeddings.readTextDimsRaw Embeddings.readEmbedsIn Embeddings.readEmbeds
  simp only [allocTableIn_checked]

theorem readFloretIn_checked (d : Bytes) (pos : Nat) :
    (Embeddings.readFloretIn .checked d pos : Res (Embeddings T FloretSubwordVocab (NdArray F) F)) =
      Embeddings.readFloret d pos := by
  have him : isizeMax = 2 ^ 63 - 1 := rfl
  have hum : usizeMax = 2 ^ 64 - 1 := rfl
  unfold Embeddings.readFloretIn Embeddings.readFloret
  cases readFloretHead d pos with
  | err e => rfl
  | panic => rfl
  | ok r =>
    obtain ⟨h, p⟩ := r
    simp only [Res.ok_bind]
    cases checkFloretHead h with
    | err e => rfl
    | panic => rfl
    | ok _ =>
      simp only [Res.ok_bind]
      by_cases hn : h.nBuckets * h.embedLen ≤ usizeMax
      · rw [arith_le hn]; rfl
      · rw [arith_checked_gt hn, decide_eq_false (by omega)]; rfl

end

/-- C96, agreement: where a build with overflow checks (the rest of the model) does not panic, a build without them does the
same: constructing and reading bucketed vocabularies, listing n-grams, mapping matrices, reading text and floret files. -/
theorem c96_partial {T F : Type} [FloatText F] {I : Type} [Indexer I] :
    (∀ ix : HashIndexer, SameUnlessPanic (Indexer.upperBound ix) (ix.upperBoundIn .unchecked)) ∧
    (∀ ws m M ix, SameUnlessPanic (SubwordVocab.new ws m M ix) (SubwordVocab.newIn .unchecked ws m M ix)) ∧
    (∀ d pos, SameUnlessPanic ((readChunk : Rd BucketSubwordVocab) d pos) (readBucketedIn .unchecked d pos)) ∧
    (∀ (v : SubwordVocab I) w, SameUnlessPanic (v.ngramIndicesCapacity w) (v.ngramIndicesCapacityIn .unchecked w)) ∧
    (∀ d pos, SameUnlessPanic (mmapNdArray d pos) (mmapNdArrayIn .unchecked d pos)) ∧
    (∀ d pos, SameUnlessPanic (mmapQuantizedArray d pos) (mmapQuantizedArrayIn .unchecked d pos)) ∧
    (∀ lossy d pos, SameUnlessPanic (Embeddings.readTextDimsRaw lossy d pos : Res (Embeddings T SimpleVocab (NdArray F) F))
      (Embeddings.readTextDimsRawIn .unchecked lossy d pos)) ∧
    (∀ d pos, SameUnlessPanic (Embeddings.readFloret d pos : Res (Embeddings T FloretSubwordVocab (NdArray F) F))
      (Embeddings.readFloretIn .unchecked d pos)) := by
  have hnew : ∀ ws m M ix, SameUnlessPanic (SubwordVocab.new ws m M ix) (SubwordVocab.newIn .unchecked ws m M ix) := by
    intro ws m M ix
    rw [← newIn_checked]
    exact .bind (.refl _) fun _ => .bind (.arith _) fun _ => .refl _
  refine ⟨fun ix => .arith _, hnew, ?_, fun v w => ?_, ?_, ?_, fun lossy d pos => ?_, fun d pos => ?_⟩
  · rw [← readBucketedIn_checked]
    refine .rd (fun _ _ => .refl _) fun _ => .rd (fun _ _ => .refl _) fun _ => .rd (fun _ _ => .refl _) fun _ =>
      .rd (fun _ _ => .refl _) fun _ => .rd (fun _ _ => .refl _) fun _ => .rd (fun _ _ => .refl _) fun _ =>
      .rd (fun _ _ => .refl _) fun _ => .rd (fun _ _ => .refl _) fun _ => ?_
    exact .lift (hnew _ _ _ _)
  · rw [← ngramIndicesCapacityIn_checked]
    refine .bind (.refl _) fun _ => .bind (.refl _) fun r => ?_
    obtain ⟨x, it⟩ := r
    cases x with
    | none => exact .refl _
    | some _ => exact .bind (.arith _) fun _ => .refl _
  · rw [← mmapNdArrayIn_checked]
    refine .rd (fun _ _ => .refl _) fun r => .rd (.lift (.arith _)) fun _ => .rd (.lift (.arith _)) fun _ _ _ => .refl _
  · rw [← mmapQuantizedArrayIn_checked]
    refine .rd (fun _ _ => .refl _) fun r => .rd (.lift (.arith _)) fun _ _ _ => .refl _
  · rw [← readTextDimsRawIn_checked]
    refine .bind (.refl _) fun _ => .bind (.refl _) fun _ => .bind ?_ fun _ => .refl _
    exact .bind (.refl _) fun _ => .bind (.arith _) fun _ => .refl _
  · rw [← readFloretIn_checked]
    exact .bind (.refl _) fun _ => .bind (.refl _) fun _ => .bind (.arith _) fun _ => .refl _

theorem mapM_arith {b : Build} {n : Nat} {l : List Nat} (h : ∀ i ∈ l, i + n ≤ usizeMax) :
    (l.mapM fun i => b.arith (i + n)) = .ok (l.map (· + n)) := by
  rw [Res.mapM_eq_ok_iff, List.map_map]
  exact List.map_congr_left fun i hi => arith_le (h i hi)

/-- C96, lengths: both builds agree on the length of a vocabulary that a build with overflow checks can construct. -/
theorem c96_vocab_len (e : Nat) (ix : HashIndexer) (hix : HashIndexer.new e = .ok ix) (ws : List Str) (m M : Nat)
    (bow eow : Str) (v : BucketSubwordVocab) (hv : SubwordVocab.newWithBoundaries ws m M ix bow eow = .ok v) (b : Build) :
    v.vocabLenIn b = .ok (ws.length + 2 ^ e) ∧ Vocab.vocabLen v = .ok (ws.length + 2 ^ e) := by
  obtain ⟨hn, ⟨ub, hub, hle⟩, rfl⟩ := SubwordVocab.newWithBoundaries_eq_ok.mp hv
  have hlen : (indexMap ws).len = ws.length := (indexMap_len_iff ws).mpr hn
  have he : ix.bucketsExp = e := by
    unfold HashIndexer.new at hix
    by_cases h : e ≤ 64
    · simp only [Res.assert, h] at hix
      rw [← Res.ok.inj hix]
    · simp [Res.assert, h] at hix
  have hub' : (Build.checked.arith (2 ^ ix.bucketsExp)) = .ok ub := hub
  unfold Build.arith at hub'
  split at hub'
  · rename_i h1
    rw [he] at hub' h1
    obtain rfl := Res.ok.inj hub'
    constructor
    · show (b.arith (2 ^ ix.bucketsExp)).bind _ = _
      rw [he, arith_le h1]
      show b.arith ((indexMap ws).len + 2 ^ e) = _
      rw [hlen, arith_le hle]
    · show (Indexer.upperBound ix).bind _ = _
      rw [hub]
      show Res.ok ((indexMap ws).len + 2 ^ e) = _
      rw [hlen]
  · cases hub'

example : ∃ ix v, HashIndexer.new 5 = .ok ix ∧
    SubwordVocab.newWithBoundaries [['a'], ['b']] 3 6 ix ['<'] ['>'] = .ok v ∧ v.vocabLenIn .unchecked = .ok 34 :=
  ⟨_, _, rfl, rfl, rfl⟩

/-- C96, lookups: for a vocabulary that a build with overflow checks can construct, with an indexer that keeps to its bound (as those of the crate
do, C28-C30), both builds agree with the rest of the model on the indices of all words and n-grams. -/
theorem c96_lookup {I : Type} [Indexer I] (ix : I) (hr : InRange ix) (ws : List Str) (m M : Nat) (bow eow : Str)
    (v : SubwordVocab I) (hv : SubwordVocab.newWithBoundaries ws m M ix bow eow = .ok v) (b : Build) (w : Str) :
    v.subwordIndicesIn b w = v.subwordIndices w ∧ v.ngramIndicesIn b w = v.ngramIndices w ∧
      v.idxIn b w = Vocab.idx v w := by
  obtain ⟨hn, ⟨ub, hub, hle⟩, rfl⟩ := SubwordVocab.newWithBoundaries_eq_ok.mp hv
  have hlen : (indexMap ws).len = ws.length := (indexMap_len_iff ws).mpr hn
  have h1 : ∀ b w, SubwordVocab.subwordIndicesIn b (⟨bow, eow, ix, indexMap ws, ws, m, M⟩ : SubwordVocab I) w =
      SubwordVocab.subwordIndices ⟨bow, eow, ix, indexMap ws, ws, m, M⟩ w := by
    intro b w
    unfold SubwordVocab.subwordIndicesIn SubwordVocab.subwordIndices
    dsimp only
    cases hl : FF.subwordIndices ix (SubwordVocab.bracket ⟨bow, eow, ix, indexMap ws, ws, m, M⟩ w) m M with
    | err e => rfl
    | panic => rfl
    | ok l =>
      simp only [Res.ok_bind]
      rw [mapM_arith fun i hi => by have := subwordIndices_lt hr hub hl i hi; omega]
      rfl
  refine ⟨h1 b w, ?_, ?_⟩
  · unfold SubwordVocab.ngramIndicesIn SubwordVocab.ngramIndices
    dsimp only
    cases hl : subwordIndicesWithNgrams ix (SubwordVocab.bracket ⟨bow, eow, ix, indexMap ws, ws, m, M⟩ w) m M with
    | err e => rfl
    | panic => rfl
    | ok l =>
      simp only [Res.ok_bind]
      have hall : ∀ p ∈ l, ∀ i ∈ p.2, i + (indexMap ws).len ≤ usizeMax := by
        intro p hp i hi
        have hs : FF.subwordIndices ix (SubwordVocab.bracket ⟨bow, eow, ix, indexMap ws, ws, m, M⟩ w) m M =
            .ok (l.flatMap (·.2)) := by unfold FF.subwordIndices; rw [hl]; rfl
        have := subwordIndices_lt hr hub hs i (List.mem_flatMap.mpr ⟨p, hp, hi⟩)
        omega
      rw [show (l.mapM fun p : Str × List Nat => do
          let is ← p.2.mapM fun i => b.arith (i + (indexMap ws).len)
          return (p.1, is)) = Res.ok (l.map fun p => (p.1, p.2.map (· + (indexMap ws).len))) by
        rw [Res.mapM_eq_ok_iff, List.map_map]
        refine List.map_congr_left fun p hp => ?_
        rw [mapM_arith (hall p hp)]
        rfl]
      rfl
  · show SubwordVocab.idxIn _ _ _ = SubwordVocab.idx _ _
    unfold SubwordVocab.idxIn SubwordVocab.idx
    rw [h1]
    rfl

/-- `c96_lookup` applied to a vocabulary with 2^21 buckets. -/
example := c96_lookup (⟨21, 2097151⟩ : HashIndexer) (HashIndexer.inRange (e := 21) rfl) [['a']] 1 3 ['<'] ['>'] _ rfl .unchecked ['a', 'b']

example : ∃ v, SubwordVocab.newWithBoundaries [['a']] 1 3 (⟨21, 2097151⟩ : HashIndexer) ['<'] ['>'] = .ok v ∧
    InRange v.indexer := ⟨_, rfl, HashIndexer.inRange (e := 21) rfl⟩

/-! ### Text files -/

theorem rawLines_length (fuel : Nat) (bs : Bytes) : ((rawLines fuel bs).map List.length).sum ≤ bs.length := by
  induction fuel generalizing bs with
  | zero => simp [rawLines]
  | succ fuel ih =>
    unfold rawLines
    have h := takeThrough_length 10 bs
    split
    · simp
    · next b l hbl =>
      rw [hbl] at h
      have := ih (bs.drop (b :: l).length)
      rw [List.length_drop] at this
      rw [List.map_cons, List.sum_cons]
      omega

theorem stripLast_length (b : UInt8) (l : Bytes) : (stripLast b l).length ≤ l.length := by
  unfold stripLast
  split <;> simp

theorem sum_map_le {α : Type} {l : List α} {f g : α → Nat} (h : ∀ a ∈ l, f a ≤ g a) : (l.map f).sum ≤ (l.map g).sum := by
  induction l with
  | nil => simp
  | cons a l ih =>
    have h1 := h a (by simp)
    have h2 := ih fun x hx => h x (List.mem_cons_of_mem _ hx)
    simp only [List.map_cons, List.sum_cons]
    omega

theorem textLines_length (bs : Bytes) : ((textLines bs).map List.length).sum ≤ bs.length := by
  unfold textLines
  rw [List.map_map]
  exact Nat.le_trans (sum_map_le fun l _ => stripLast_length 10 l) (rawLines_length _ bs)

theorem bufLines_length (bs : Bytes) : ((bufLines bs).map List.length).sum ≤ bs.length := by
  unfold bufLines
  rw [List.map_map]
  refine Nat.le_trans (sum_map_le fun l _ => ?_) (rawLines_length _ bs)
  show (if _ then _ else _ : Bytes).length ≤ _
  split
  · exact Nat.le_trans (stripLast_length 13 _) (by simp)
  · exact Nat.le_refl _

/-- Lines that are each shorter in components than in bytes. -/
theorem flatten_length_le {α : Type} {f : Bytes → Res (List α)} {ls : List Bytes} {rs : List (List α)}
    (hf : ∀ l ∈ ls, ∀ r, f l = .ok r → r.length ≤ l.length) (h : ls.map f = rs.map .ok) :
    rs.flatten.length ≤ (ls.map List.length).sum := by
  induction ls generalizing rs with
  | nil =>
    have : rs = [] := by simpa using h.symm
    subst this
    simp
  | cons l ls ih =>
    cases rs with
    | nil => simp at h
    | cons r rs =>
      simp only [List.map_cons, List.cons.injEq] at h
      have h1 := hf l (by simp) r h.1
      have h2 := ih (fun x hx => hf x (List.mem_cons_of_mem _ hx)) h.2
      simp only [List.flatten_cons, List.length_append, List.map_cons, List.sum_cons]
      omega

section
variable {T F : Type} [FloatText F]

theorem readTextLine_length {lossy : Bool} {l : Bytes} {r : Str × List F} (h : Embeddings.readTextLine lossy l = .ok r) :
    r.2.length ≤ l.length := by
  unfold Embeddings.readTextLine at h
  obtain ⟨s, h1, h⟩ := Res.bind_eq_ok.mp h
  have hs := (decodeToken_size h1).2
  have ht := ((parts_spec s _).mp rfl).size.1
  cases hp : parts s with
  | nil => rw [hp] at h; cases h
  | cons w ps =>
    rw [hp] at h ht
    dsimp only at h
    obtain ⟨xs, h2, h⟩ := Res.bind_eq_ok.mp h
    cases h
    have := Res.mapM_length h2
    rw [List.length_cons] at ht
    dsimp only
    omega

theorem readFloretLine_length {k : Nat} {l : Bytes} {r : List F} (h : Embeddings.readFloretLine k l = .ok r) :
    r.length ≤ l.length := by
  unfold Embeddings.readFloretLine at h
  obtain ⟨s, h1, h⟩ := Res.bind_eq_ok.mp h
  have hs : s.length ≤ l.length := by
    have h1' : decodeToken false l = .ok s := by
      unfold decodeToken
      cases hd : utf8Decode l with
      | none => rw [hd] at h1; cases h1
      | some t => rw [hd] at h1; cases h1; rfl
    exact (decodeToken_size h1').2
  have ht := ((parts_spec s _).mp rfl).size.1
  obtain ⟨xs, h2, h⟩ := Res.bind_eq_ok.mp h
  have := Res.mapM_length h2
  split at h
  · cases h
  · cases h
    rw [List.length_drop] at this
    omega

omit [FloatText F] in
theorem fromShapeVec_ok {shape : Nat × Nat} {xs : List F} {m : Mat F} (h : Embeddings.fromShapeVec shape xs = .ok m) :
    xs.length = shape.1 * shape.2 := by
  unfold Embeddings.fromShapeVec at h
  split at h
  · assumption
  · cases h

/-- C96, text and floret files of less than 2^64 bytes: what a build without overflow checks accepts, a build with them
accepts with the same result; a product that wraps around is always noticed later. -/
theorem c96_text (d : Bytes) (pos : Nat) (hd : d.length < 2 ^ 64) :
    (∀ lossy (e : Embeddings T SimpleVocab (NdArray F) F), Embeddings.readTextDimsRawIn .unchecked lossy d pos = .ok e →
      Embeddings.readTextDimsRaw lossy d pos = .ok e) ∧
    (∀ e : Embeddings T FloretSubwordVocab (NdArray F) F, Embeddings.readFloretIn .unchecked d pos = .ok e →
      Embeddings.readFloret d pos = .ok e) := by
  have hum : usizeMax = 2 ^ 64 - 1 := rfl
  constructor
  · intro lossy e h
    rw [← readTextDimsRawIn_checked]
    unfold Embeddings.readTextDimsRawIn at h ⊢
    obtain ⟨⟨n, p1⟩, h1, h⟩ := Res.bind_eq_ok.mp h
    obtain ⟨⟨k, p2⟩, h2, h⟩ := Res.bind_eq_ok.mp h
    refine Res.bind_eq_ok.mpr ⟨_, h1, Res.bind_eq_ok.mpr ⟨_, h2, ?_⟩⟩
    dsimp only at h ⊢
    unfold Embeddings.readEmbedsIn at h ⊢
    obtain ⟨_, h3, h⟩ := Res.bind_eq_ok.mp h
    refine Res.bind_eq_ok.mpr ⟨(), ?_, h⟩
    obtain ⟨rows, h4, h⟩ := Res.bind_eq_ok.mp h
    obtain ⟨shape, h5, h⟩ := Res.bind_eq_ok.mp h
    obtain ⟨m, h6, h⟩ := Res.bind_eq_ok.mp h
    have hs : shape = (n, k) := by
      unfold Embeddings.tableShape at h5
      dsimp only at h5
      split at h5
      · cases h5
      · split at h5
        · cases h5
        · split at h5
          · cases h5
          · cases h5; rfl
    subst hs
    have h7 := fromShapeVec_ok h6
    have h8 := flatten_length_le (f := fun l => (Embeddings.readTextLine (F := F) lossy l).map (·.2)) (rs := rows.map (·.2))
      (fun l _ r hr => by
        obtain ⟨x, hx, rfl⟩ := Res.map_eq_ok.mp hr
        exact readTextLine_length hx) (ls := textLines (d.drop p2)) (by
        have := congrArg (List.map (Res.map (·.2))) (Res.mapM_eq_ok_iff.mp h4)
        rw [List.map_map, List.map_map] at this
        rw [List.map_map]
        exact this)
    have h9 := textLines_length (d.drop p2)
    rw [List.length_drop] at h9
    have hfit : n * k ≤ usizeMax := by dsimp only at h7; omega
    unfold allocTableIn at h3 ⊢
    dsimp only at h3 ⊢
    rw [arith_le hfit] at h3 ⊢
    exact h3
  · intro e h
    rw [← readFloretIn_checked]
    unfold Embeddings.readFloretIn at h ⊢
    obtain ⟨⟨hd', p⟩, h1, h⟩ := Res.bind_eq_ok.mp h
    obtain ⟨_, h2, h⟩ := Res.bind_eq_ok.mp h
    obtain ⟨size, h3, h⟩ := Res.bind_eq_ok.mp h
    obtain ⟨_, h4, h⟩ := Res.bind_eq_ok.mp h
    obtain ⟨rows, h5, h'⟩ := Res.bind_eq_ok.mp h
    obtain ⟨m, h6, -⟩ := Res.bind_eq_ok.mp h'
    have h7 := fromShapeVec_ok h6
    have h8 := flatten_length_le (fun l _ r hr => readFloretLine_length hr) (Res.mapM_eq_ok_iff.mp h5)
    have h9 := bufLines_length (d.drop p)
    rw [List.length_drop] at h9
    have hfit : hd'.nBuckets * hd'.embedLen ≤ usizeMax := by dsimp only at h7; omega
    refine Res.bind_eq_ok.mpr ⟨_, h1, Res.bind_eq_ok.mpr ⟨_, h2, Res.bind_eq_ok.mpr ⟨size, ?_, Res.bind_eq_ok.mpr ⟨_, h4, h⟩⟩⟩⟩
    rw [← h3, arith_le hfit, arith_le hfit]

/-- Hypothesis of `c96_text`. -/
example := @c96_text Unit F32 exampleFloatText ("1 2\na 1 2\n".toList.map fun c => UInt8.ofNat c.toNat) 0 (by decide)

end

/-- A table of 2^63 rows of two components is promised: a build without overflow checks notices that it is not there. -/
example : (@Embeddings.readTextDimsRawIn Unit F32 exampleFloatText .unchecked false
      ("9223372036854775808 2\na 1 2\n".toList.map fun c => UInt8.ofNat c.toNat) 0).map (fun e => e.vocab.words) = .panic ∧
    (@Embeddings.readTextDimsRawIn Unit F32 exampleFloatText .unchecked false
      ("1 18446744073709551615\na 1 2\n".toList.map fun c => UInt8.ofNat c.toNat) 0).map (fun e => e.vocab.words) = .panic ∧
    (@Embeddings.readTextDimsRawIn Unit F32 exampleFloatText .unchecked false
      ("4 4611686018427387905\na 1 2\n".toList.map fun c => UInt8.ofNat c.toNat) 0).map (fun e => e.vocab.words) = .err .format ∧
    (@Embeddings.readTextDimsRawIn Unit F32 exampleFloatText .checked false
      ("4 4611686018427387905\na 1 2\n".toList.map fun c => UInt8.ofNat c.toNat) 0).map (fun e => e.vocab.words) = .panic ∧
    (@Embeddings.readTextDimsRawIn Unit F32 exampleFloatText .unchecked false
      ("1 2\na 1 2\n".toList.map fun c => UInt8.ofNat c.toNat) 0).map (fun e => e.vocab.words) = .ok [['a']] := by
  refine ⟨?_, ?_, ?_, ?_, ?_⟩ <;> decide +kernel

/-! ### Where the builds differ -/

/-- A bucketed vocabulary chunk of one word with 2^64 buckets. -/
def exampleAllBuckets : Bytes :=
  leBytes 4 3 ++ leBytes 8 0 ++ leBytes 8 1 ++ leBytes 4 1 ++ leBytes 4 2 ++ leBytes 4 64 ++ leBytes 4 1 ++ [97]

/-- The head of a quantized chunk that announces 2^63 + 1 rows of two codes each, and the codes of one row. -/
def exampleManyCodes : Bytes :=
  leBytes 4 4 ++ leBytes 8 0 ++ leBytes 4 0 ++ leBytes 4 0 ++ leBytes 4 2 ++ leBytes 4 2 ++ leBytes 4 1 ++
    leBytes 8 (2 ^ 63 + 1) ++ leBytes 4 1 ++ leBytes 4 10 ++ leBytes 4 0 ++ leBytes 4 0 ++ leBytes 4 0 ++
    [0, 0]

/-- C96 is false: a build without overflow checks accepts a vocabulary with 2^64 buckets, says that it has one row, and gives
a word an index outside of it; and it maps a quantized matrix with fewer rows than the file announces. A build with checks
panics in both cases. -/
theorem c96_false :
    (∃ (d : Bytes) (v : BucketSubwordVocab) (p : Nat), (readChunk : Rd BucketSubwordVocab) d 0 = .panic ∧
      readBucketedIn .unchecked d 0 = .ok (v, p) ∧ v.vocabLenIn .unchecked = .ok 1 ∧
      ∃ w l, v.idxIn .unchecked w = .ok (some (.subword l)) ∧ ∃ i ∈ l, 1 ≤ i) ∧
    (∃ (d : Bytes) (a : MmapQuantizedArray) (p : Nat), d.length = p ∧ mmapQuantizedArray d 0 = .panic ∧
      mmapQuantizedArrayIn .unchecked d 0 = .ok (a, p) ∧ a.nRows = 1 ∧
      ∃ r, (readQuantizedHead d 0).map (·.1.1.nEmbeddings) = .ok r ∧ 1 < r) := by
  constructor
  · refine ⟨exampleAllBuckets, ⟨['<'], ['>'], ⟨64, UInt64.ofNat (2 ^ 64 - 1)⟩, indexMap [['a']], [['a']], 1, 2⟩, 37,
      ?_, ?_, ?_, ['b'], ?_⟩
    · decide +kernel
    · decide +kernel
    · decide +kernel
    · obtain ⟨o, ho, h⟩ := Res.map_eq_ok.mp (show (SubwordVocab.idxIn .unchecked
          (⟨['<'], ['>'], ⟨64, UInt64.ofNat (2 ^ 64 - 1)⟩, indexMap [['a']], [['a']], 1, 2⟩ : BucketSubwordVocab) ['b']).map
          (fun o => match o with
            | some (.subword l) => decide (∃ i ∈ l, 1 ≤ i)
            | _ => false) = .ok true by decide +kernel)
      match o, h with
      | some (.subword l), h => exact ⟨l, ho, of_decide_eq_true h⟩
  · obtain ⟨r, hr, h⟩ := Res.map_eq_ok.mp (show (mmapQuantizedArrayIn .unchecked exampleManyCodes 0).map
      (fun r => (r.1.nRows, r.2)) = .ok (1, exampleManyCodes.length) by decide +kernel)
    obtain ⟨h, h'⟩ := Prod.mk.inj h
    exact ⟨exampleManyCodes, r.1, r.2, h'.symm, by decide +kernel, hr, h, 2 ^ 63 + 1, by decide +kernel, by decide⟩

end FF
