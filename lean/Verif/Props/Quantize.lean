import Verif.Model.Quantize
import Verif.Props.Lookup

/-!
# Quantization (C57)
-/

namespace FF

open Rd Res

variable {S F : Type} [Scalar F] [Storage S F] [StorageView S F]

/-! ## The view of a storage -/

/-- Specification: the view of the storage is a rectangular matrix of the storage's shape, and its rows are
the rows that lookups return. -/
def ViewIsRows {S F : Type} [Storage S F] [StorageView S F] (s : S) : Prop :=
  ∀ m : Mat F, view s = .ok m → (m.nrows, m.cols) = shape s ∧ (∀ r ∈ m.rows, r.length = m.cols) ∧
    ∀ i (h : i < m.rows.length), embedding s i = .ok m.rows[i]

theorem c57_view_array {F : Type} (a : NdArray F) (h : a.inner.WF) : ViewIsRows a := by
  intro m hm
  have hm : (Res.ok a.inner : Res (Mat F)) = .ok m := hm
  cases hm
  refine ⟨rfl, h, fun i hi => ?_⟩
  show Res.unwrap a.inner.rows[i]? = _
  rw [List.getElem?_eq_getElem hi]; rfl

theorem c57_view_mmap (a : MmapArray) : ViewIsRows a := by
  intro m hm
  have hm : ((List.range a.nRows).mapM a.row).map (fun rs => (⟨a.cols, rs⟩ : Mat F32)) = .ok m := hm
  obtain ⟨rs, hrs, rfl⟩ := map_eq_ok.mp hm
  have hmap := mapM_eq_ok_iff.mp hrs
  have hlen : rs.length = a.nRows := by
    have := congrArg List.length hmap
    simpa using this.symm
  have hrow : ∀ i (h : i < rs.length), a.row i = .ok rs[i] := by
    intro i hi
    have := congrArg (fun l => l[i]?) hmap
    simp only [List.getElem?_map] at this
    rw [List.getElem?_range (by omega), List.getElem?_eq_getElem hi] at this
    simpa using this
  refine ⟨by simp [Mat.nrows, hlen, shape], ?_, hrow⟩
  intro r hr
  obtain ⟨i, hi, rfl⟩ := List.getElem_of_mem hr
  have h1 := hrow i hi
  unfold MmapArray.row at h1
  split at h1
  · obtain ⟨b, _, hb⟩ := map_eq_ok.mp h1
    show rs[i].length = a.cols
    rw [← hb]; simp
  · cases h1

/-- The wrapper of the viewable storages. -/
theorem c57_view_wrap (s : StorageViewWrap)
    (h : ∀ a, s = .ndArray a → a.inner.WF) : ViewIsRows s := by
  cases s with
  | ndArray a => exact c57_view_array a (h a rfl)
  | mmapArray a => exact c57_view_mmap a

/-- Hypothesis of `c57_view_wrap`. -/
example [Scalar F32] := c57_view_wrap (.ndArray ⟨⟨2, [[1, 2], [3, 4]]⟩⟩)
  (by intro a h; cases h; intro r hr; revert r; decide)

/-! ## The guard -/

/-- The bound of the guard, without the logarithm: at most eight bits, and no more than `2 ^ bits` vectors
(zero bits always pass the guard). -/
theorem c57_bound (bits n : Nat) :
    bits ≤ maxSubquantizerBits n ↔ bits ≤ 8 ∧ (bits = 0 ∨ 2 ^ bits ≤ n) := by
  unfold maxSubquantizerBits
  rw [Nat.le_min]
  by_cases h0 : bits = 0
  · simp [h0]
  · by_cases hn : n = 0
    · subst hn
      have : 0 < 2 ^ bits := Nat.two_pow_pos bits
      have h2 : Nat.log2 0 = 0 := by decide
      rw [h2]; omega
    · rw [Nat.le_log2 hn]; simp [h0]

/-- C57, guard: more than eight bits, or fewer than `2 ^ bits` vectors, are a quantization error, whatever the
trainer would do (it is not run). -/
theorem c57_guard (t : PqTrainer F) (k bits it att : Nat) (normalize : Bool) (s : S)
    (h : 8 < bits ∨ (bits ≠ 0 ∧ (shape s).1 < 2 ^ bits)) :
    quantizeStorage t k bits it att normalize s = .err .quantization := by
  unfold quantizeStorage
  rw [if_pos]
  have := c57_bound bits (shape s).1
  omega

/-! ## Successful quantization -/

/-- What is assumed of crate reductive: a trained quantizer has the requested number of sub-quantizers of
`2 ^ bits` centroids each and reconstructs vectors of the length it was trained with; quantizing gives
one row of codes per vector, one code per sub-quantizer, and each code is the number of a centroid. -/
structure TrainerContract (t : PqTrainer F) : Prop where
  trained : ∀ k bits it att (m : Mat F) q, (∀ r ∈ m.rows, r.length = m.cols) →
    t.train k bits it att m = .ok q →
    q.WF ∧ q.quantizedLen = k ∧ q.nCentroids = 2 ^ bits ∧ q.reconstructedLen = m.cols
  encoded : ∀ q (m : Mat F) codes, q.WF → q.nCentroids ≤ 256 → q.reconstructedLen = m.cols →
    (∀ r ∈ m.rows, r.length = m.cols) → t.quantizeBatch q m = .ok codes →
    codes.WF ∧ codes.nrows = m.nrows ∧ codes.cols = q.quantizedLen ∧
      ∀ r ∈ codes.rows, ∀ c ∈ r, c.toNat < q.nCentroids

omit [Storage S F] [StorageView S F] in
theorem quantizeInput_dim (normalize : Bool) (m : Mat F) (h : ∀ r ∈ m.rows, r.length = m.cols) :
    (quantizeInput normalize m).1.cols = m.cols ∧ (quantizeInput normalize m).1.nrows = m.nrows ∧
    (∀ r ∈ (quantizeInput normalize m).1.rows, r.length = m.cols) ∧
    ∀ ns, (quantizeInput normalize m).2 = some ns → ns.length = m.nrows := by
  unfold quantizeInput
  cases normalize with
  | false => exact ⟨rfl, rfl, h, by simp⟩
  | true =>
    refine ⟨rfl, by simp [Mat.nrows], ?_, ?_⟩
    · intro r hr
      simp only [if_true, List.zipWith_map_right, List.zipWith_self] at hr
      obtain ⟨r', hr', rfl⟩ := List.mem_map.mp hr
      simp [h r' hr']
    · intro ns hns
      simp at hns
      subst hns; simp [Mat.nrows]

theorem quantizeStorage_eq_ok {t : PqTrainer F} {k bits it att : Nat} {normalize : Bool} {s : S}
    {a : QuantizedArray F} :
    quantizeStorage t k bits it att normalize s = .ok a ↔
      bits ≤ maxSubquantizerBits (shape s).1 ∧ ∃ m, view s = .ok m ∧
        t.train k bits it att (quantizeInput normalize m).1 = .ok a.quantizer ∧
        t.quantizeBatch a.quantizer (quantizeInput normalize m).1 = .ok a.codes ∧
        a.norms = (quantizeInput normalize m).2 := by
  unfold quantizeStorage
  by_cases hb : bits > maxSubquantizerBits (shape s).1
  · rw [if_pos hb]
    constructor
    · intro h; cases h
    · rintro ⟨h, _⟩; omega
  · rw [if_neg hb]
    constructor
    · intro h
      obtain ⟨m, hm, h⟩ := bind_eq_ok.mp h
      obtain ⟨q, hq, h⟩ := bind_eq_ok.mp h
      obtain ⟨c, hc, h⟩ := bind_eq_ok.mp h
      cases h
      refine ⟨by omega, m, hm, ?_, hc, rfl⟩
      cases ht : t.train k bits it att (quantizeInput normalize m).1 with
      | ok q' => rw [ht] at hq; exact hq
      | err e => rw [ht] at hq; cases hq
      | panic => rw [ht] at hq; cases hq
    · rintro ⟨_, m, hm, hq, hc, hn⟩
      rw [bind_eq_ok]
      refine ⟨m, hm, ?_⟩
      rw [bind_eq_ok]
      refine ⟨a.quantizer, by rw [hq]; rfl, ?_⟩
      rw [bind_eq_ok]
      refine ⟨a.codes, hc, ?_⟩
      rw [← hn]; rfl

/-- C57, success: quantization only succeeds within the guard; the result has the shape of the original
storage and the requested number of sub-quantizers and centroids, stores one norm per vector exactly if
normalisation was asked for, and can be looked up and reconstructed everywhere. -/
theorem c57_ok (t : PqTrainer F) (ht : TrainerContract t) (k bits it att : Nat) (normalize : Bool) (s : S)
    (hs : ViewIsRows s) (a : QuantizedArray F)
    (ha : quantizeStorage t k bits it att normalize s = .ok a) :
    bits ≤ 8 ∧ (bits = 0 ∨ 2 ^ bits ≤ (shape s).1) ∧
    shape a = shape s ∧ a.quantizer.quantizedLen = k ∧ a.quantizer.nCentroids = 2 ^ bits ∧
    (a.norms.isSome = normalize) ∧ (∀ ns, a.norms = some ns → ns.length = (shape s).1) ∧
    a.WF ∧ (∀ i, i < (shape s).1 → ∃ v, embedding a i = .ok v ∧ v.length = (shape s).2) := by
  obtain ⟨hb, m, hm, hq, hc, hn⟩ := quantizeStorage_eq_ok.mp ha
  obtain ⟨hb8, hbn⟩ := (c57_bound bits (shape s).1).mp hb
  obtain ⟨hdim, hrect, _⟩ := hs m hm
  obtain ⟨i1, i2, i3, i4⟩ := quantizeInput_dim normalize m hrect
  have i3' : ∀ r ∈ (quantizeInput normalize m).1.rows, r.length = (quantizeInput normalize m).1.cols := by
    rw [i1]; exact i3
  obtain ⟨hwf, hk, hcent, hrec⟩ := ht.trained _ _ _ _ _ _ i3' hq
  have hle : a.quantizer.nCentroids ≤ 256 := by
    rw [hcent]; exact Nat.pow_le_pow_right (n := 2) (by decide) hb8
  obtain ⟨cwf, crows, ccols, cok⟩ := ht.encoded _ _ _ hwf hle hrec i3' hc
  have hn1 : m.nrows = (shape s).1 := congrArg Prod.fst hdim
  have hn2 : m.cols = (shape s).2 := congrArg Prod.snd hdim
  have hawf : a.WF := ⟨hwf, cwf, ccols, fun ns h => by rw [i4 ns (hn ▸ h), crows, i2]⟩
  have hshape : shape a = shape s := by
    rw [← hdim]
    show (a.codes.nrows, a.quantizer.reconstructedLen) = _
    rw [crows, hrec, i1, i2]
  refine ⟨hb8, hbn, hshape, hk, hcent, ?_, ?_, hawf, ?_⟩
  · rw [hn]; cases normalize <;> rfl
  · intro ns h; rw [i4 ns (hn ▸ h), hn1]
  · intro i hi
    obtain ⟨v, hv⟩ := QuantizedArray.rowsTotal hawf cok i (by rw [hshape]; exact hi)
    exact ⟨v, hv, by rw [QuantizedArray.rowsSized hawf i v hv, hshape]⟩

/-- C57, errors: an error of the trainer is reported as a quantization error. -/
theorem c57_train_error (t : PqTrainer F) (k bits it att : Nat) (normalize : Bool) (s : S) (m : Mat F) (e : Err)
    (hm : view s = .ok m)
    (ht : t.train k bits it att (quantizeInput normalize m).1 = .err e) :
    quantizeStorage t k bits it att normalize s = .err .quantization := by
  unfold quantizeStorage
  split
  · rfl
  · rw [hm]
    show (asQuantizationError (t.train k bits it att (quantizeInput normalize m).1) >>= _) = _
    rw [ht]; rfl

/-- C57, panics: if enough rows are there and the trainer panics, so does the quantization. -/
theorem c57_train_panic (t : PqTrainer F) (k bits it att : Nat) (normalize : Bool) (s : S) (m : Mat F)
    (hb : 2 ^ bits ≤ (shape s).1) (hb8 : bits ≤ 8) (hm : view s = .ok m)
    (ht : t.train k bits it att (quantizeInput normalize m).1 = .panic) :
    quantizeStorage t k bits it att normalize s = .panic := by
  unfold quantizeStorage
  have : ¬ bits > maxSubquantizerBits (shape s).1 := by
    have h0 : (shape s).1 ≠ 0 := by
      have := Nat.two_pow_pos bits
      omega
    have := (Nat.le_log2 h0).mpr hb
    unfold maxSubquantizerBits
    omega
  rw [if_neg this, hm]
  show (asQuantizationError (t.train k bits it att (quantizeInput normalize m).1) >>= _) = _
  rw [ht]; rfl

/-- C57 for embeddings: quantization fails exactly if the quantization of the storage does, with the same
outcome; otherwise metadata, vocabulary and norms are those of the original, and the storage is the quantized
storage. -/
theorem c57_embeddings {T V : Type} (t : PqTrainer F) (k bits it att : Nat) (normalize : Bool)
    (e : Embeddings T V S F) :
    (∀ q, e.quantize t k bits it att normalize = .ok q ↔
      q.metadata = e.metadata ∧ q.vocab = e.vocab ∧ q.norms = e.norms ∧
      quantizeStorage t k bits it att normalize e.storage = .ok q.storage) ∧
    (∀ x, e.quantize t k bits it att normalize = .err x ↔
      quantizeStorage t k bits it att normalize e.storage = .err x) ∧
    (e.quantize t k bits it att normalize = .panic ↔
      quantizeStorage t k bits it att normalize e.storage = .panic) := by
  unfold Embeddings.quantize
  cases quantizeStorage t k bits it att normalize e.storage with
  | ok a =>
    refine ⟨fun q => ?_, fun x => ?_, ?_⟩
    · constructor
      · intro h; cases h; exact ⟨rfl, rfl, rfl, rfl⟩
      · rintro ⟨h1, h2, h3, h4⟩
        cases h4; cases q; cases h1; cases h2; cases h3; rfl
    · constructor <;> intro h <;> cases h
    · constructor <;> intro h <;> cases h
  | err y =>
    refine ⟨fun q => ?_, fun x => ?_, ?_⟩
    · constructor
      · intro h; cases h
      · rintro ⟨_, _, _, h⟩; cases h
    · constructor <;> intro h <;> cases h <;> rfl
    · constructor <;> intro h <;> cases h
  | panic =>
    refine ⟨fun q => ?_, fun x => ?_, ?_⟩
    · constructor
      · intro h; cases h
      · rintro ⟨_, _, _, h⟩; cases h
    · constructor <;> intro h <;> cases h
    · exact ⟨fun _ => rfl, fun _ => rfl⟩

/-- The embeddings that come out of a quantization again meet the condition of the constructor. -/
theorem c57_consistent {T V : Type} [Vocab V] (t : PqTrainer F) (ht : TrainerContract t) (k bits it att : Nat)
    (normalize : Bool) (e : Embeddings T V S F) (hs : ViewIsRows e.storage)
    (he : Embeddings.newWithMaybeNorms e.metadata e.vocab e.storage e.norms = .ok e)
    (q : Embeddings T V (QuantizedArray F) F) (hq : e.quantize t k bits it att normalize = .ok q) :
    Embeddings.newWithMaybeNorms q.metadata q.vocab q.storage q.norms = .ok q ∧ q.dims = e.dims ∧
      q.len = e.len := by
  obtain ⟨h1, h2, h3, h4⟩ := ((c57_embeddings t k bits it att normalize e).1 q).mp hq
  have hsh := (c57_ok t ht k bits it att normalize e.storage hs q.storage h4).2.2.1
  refine ⟨?_, by unfold Embeddings.dims; rw [hsh], by unfold Embeddings.len; rw [h2]⟩
  unfold Embeddings.newWithMaybeNorms at he ⊢
  rw [h2, hsh]
  obtain ⟨n, hn, he⟩ := bind_eq_ok.mp he
  obtain ⟨u, hu, _⟩ := bind_eq_ok.mp he
  rw [bind_eq_ok]
  refine ⟨n, hn, ?_⟩
  rw [bind_eq_ok]
  refine ⟨u, hu, ?_⟩
  rw [← h2]; rfl

/-! ## A trainer that meets the contract -/

/-- A trainer for the examples: the centroids are the pieces of the first `2 ^ bits` rows, and a vector is
encoded by the number of its row (or by 0). -/
def firstRows (F : Type) : PqTrainer F where
  train k bits _ _ m :=
    if k ≠ 0 ∧ m.cols / k ≠ 0 ∧ k * (m.cols / k) = m.cols ∧ 2 ^ bits ≤ m.nrows then
      .ok ⟨none, 2 ^ bits, m.cols / k, (List.range k).map fun j =>
        ⟨m.cols / k, (m.rows.take (2 ^ bits)).map fun r => (r.drop (j * (m.cols / k))).take (m.cols / k)⟩⟩
    else .err .quantization
  quantizeBatch q m :=
    .ok ⟨q.quantizedLen, m.rows.zipIdx.map fun p =>
      List.replicate q.quantizedLen (if p.2 < q.nCentroids then UInt8.ofNat p.2 else 0)⟩

omit [Scalar F] in
theorem firstRows_contract : TrainerContract (firstRows F) := by
  constructor
  · intro k bits it att m q hm h
    unfold firstRows at h
    simp only at h
    split at h
    · rename_i hc
      obtain ⟨hk, hd, hkd, hn⟩ := hc
      cases h
      have hmem : ∀ x ∈ (List.range k).map (fun j => (⟨m.cols / k, (m.rows.take (2 ^ bits)).map fun r =>
          (r.drop (j * (m.cols / k))).take (m.cols / k)⟩ : Mat F)),
          x.WF ∧ x.cols = m.cols / k ∧ x.nrows = 2 ^ bits := by
        intro x hx
        obtain ⟨j, hj, rfl⟩ := List.mem_map.mp hx
        rw [List.mem_range] at hj
        refine ⟨?_, rfl, ?_⟩
        · intro r hr
          obtain ⟨r', hr', rfl⟩ := List.mem_map.mp hr
          have h1 := hm r' (List.mem_of_mem_take hr')
          have h2 : j * (m.cols / k) + m.cols / k ≤ k * (m.cols / k) := by
            rw [← Nat.succ_mul]; exact Nat.mul_le_mul_right _ hj
          simp only [List.length_take, List.length_drop, h1]
          omega
        · simp only [Mat.nrows, List.length_map, List.length_take] at hn ⊢
          omega
      refine ⟨⟨?_, ?_, hd, hmem, ?_⟩, ?_, rfl, ?_⟩
      · intro h
        have := congrArg List.length h
        simp at this; exact hk this
      · exact Nat.ne_of_gt (Nat.two_pow_pos bits)
      · intro p hp; cases hp
      · simp [Pq.quantizedLen]
      · simp [Pq.reconstructedLen, hkd]
    · cases h
  · intro q m codes hq hle hrec hm h
    cases h
    refine ⟨?_, by simp [Mat.nrows], rfl, ?_⟩
    · intro r hr
      obtain ⟨p, _, rfl⟩ := List.mem_map.mp hr
      simp
    · intro r hr c hc
      obtain ⟨p, _, rfl⟩ := List.mem_map.mp hr
      have h0 : 0 < q.nCentroids := Nat.pos_of_ne_zero hq.cent
      rw [(List.mem_replicate.mp hc).2]
      split
      · rename_i hi
        rw [UInt8.toNat_ofNat']
        exact Nat.lt_of_le_of_lt (Nat.mod_le _ _) hi
      · exact h0

/-- A matrix of four vectors of two components. -/
def exampleMatrix : NdArray F32 := ⟨⟨2, [[1, 2], [3, 4], [5, 6], [1, 4]]⟩⟩

attribute [local instance] exampleScalar in
/-- The hypotheses of `c57_guard`, `c57_ok` and `c57_train_error` hold for concrete cases: four vectors can be
quantized with two bits but not with three; three sub-quantizers do not divide two columns. -/
example : ViewIsRows exampleMatrix ∧ TrainerContract (firstRows F32) ∧
    (∃ a, quantizeStorage (firstRows F32) 2 2 10 1 false exampleMatrix = .ok a ∧
      a.codes.rows = [[0, 0], [1, 1], [2, 2], [3, 3]]) ∧
    (∃ a, quantizeStorage (firstRows F32) 1 1 10 1 true exampleMatrix = .ok a ∧ a.norms = some [5, 25, 61, 17]) ∧
    quantizeStorage (firstRows F32) 2 3 10 1 false exampleMatrix = .err .quantization ∧
    (shape exampleMatrix).1 < 2 ^ 3 ∧
    (firstRows F32).train 3 2 10 1 exampleMatrix.inner = .err .quantization := by
  refine ⟨c57_view_array _ ?_, firstRows_contract, ⟨_, rfl, by decide⟩, ⟨_, rfl, by decide⟩, rfl, by decide, rfl⟩
  intro r hr; revert r; decide

/-- The hypotheses of `c57_train_panic` hold for a trainer that panics if there are no sub-quantizers. -/
example : let t : PqTrainer F32 := { firstRows F32 with train := fun k b i a m => if k = 0 then .panic else (firstRows F32).train k b i a m }
    2 ^ 2 ≤ (shape exampleMatrix).1 ∧ (view exampleMatrix : Res (Mat F32)) = .ok exampleMatrix.inner ∧ t.train 0 2 10 1 exampleMatrix.inner = .panic :=
  ⟨by decide, rfl, rfl⟩

attribute [local instance] exampleScalar in
/-- The hypotheses of `c57_consistent` hold for a concrete case. -/
example : ∃ (e : Embeddings Unit VocabWrap (NdArray F32) F32) (q : _),
    Embeddings.newWithMaybeNorms e.metadata e.vocab e.storage e.norms = .ok e ∧ ViewIsRows e.storage ∧
    e.quantize (firstRows F32) 1 1 10 1 false = .ok q := by
  refine ⟨⟨none, ⟨⟨2, [[1, 2], [3, 4], [5, 6], [7, 8], [9, 10], [11, 12]]⟩⟩, exampleVocab, some ⟨[7, 8]⟩⟩, _,
    rfl, c57_view_array _ ?_, rfl⟩
  intro r hr; revert r; decide

end FF
