import Verif.Props.Storage

/-!
# Memory mapping agrees with reading (C21)
-/

namespace FF

open Rd Res

theorem le_pageEnd (len : Nat) : len ≤ pageEnd len := by
  have := Nat.div_add_mod (len + pageSize - 1) pageSize
  have := Nat.mod_lt (len + pageSize - 1) (y := pageSize) (by decide)
  unfold pageEnd
  rw [Nat.mul_comm]
  simp only [pageSize] at *
  omega

theorem Mmap.slice_of_le {m : Mmap} {start n : Nat} (h : n ≠ 0) (h1 : start + n ≤ m.len)
    (h2 : m.off + start + n ≤ m.file.length) : m.slice start n = .ok ((m.file.drop (m.off + start)).take n) := by
  unfold Mmap.slice
  rw [if_neg h, if_pos ⟨h1, Nat.le_trans h2 (le_pageEnd _)⟩]
  dsimp only
  rw [show n - ((m.file.drop (m.off + start)).take n).length = 0 by simp; omega]
  simp

theorem decodeF32s_drop (i n : Nat) (bs : Bytes) :
    (decodeF32s n bs).drop i = decodeF32s (n - i) (bs.drop (4 * i)) := by
  induction i generalizing n bs with
  | zero => simp
  | succ i ih =>
    cases n with
    | zero => simp [decodeF32s]
    | succ n =>
      simp only [decodeF32s, List.drop_succ_cons, ih, List.drop_drop]
      congr 1
      · omega
      · congr 1; omega

theorem decodeF32s_take {k n : Nat} (h : k ≤ n) (bs : Bytes) :
    (decodeF32s n bs).take k = decodeF32s k bs := by
  induction k generalizing n bs with
  | zero => simp [decodeF32s]
  | succ k ih =>
    cases n with
    | zero => omega
    | succ n =>
      simp only [decodeF32s, List.take_succ_cons]
      rw [ih (by omega)]

theorem decodeF32s_take_bytes (k : Nat) (bs : Bytes) : decodeF32s k (bs.take (4 * k)) = decodeF32s k bs := by
  induction k generalizing bs with
  | zero => rfl
  | succ k ih =>
    simp only [decodeF32s, List.take_take]
    rw [show 4 * (k + 1) = 4 + 4 * k by omega, List.drop_take, Nat.add_sub_cancel_left, ih,
      Nat.min_eq_left (by omega)]

theorem allocArray_ok {size : Nat} {dims : List Nat} {d : Bytes} {pos q : Nat} {u : Unit}
    (h : allocArray size dims d pos = .ok (u, q)) : size * dims.prod ≤ isizeMax ∧ q = pos := by
  unfold allocArray at h
  obtain ⟨h1, h2⟩ := Rd.assert_ok.mp h
  exact ⟨(of_decide_eq_true h1).2, h2⟩

theorem readQuantizedHead_ne {d : Bytes} {pos q : Nat} {r : PqRead} {n : Option (List F32)}
    (h : readQuantizedHead d pos = .ok ((r, n), q)) : 0 < r.quantizer.quantizedLen := by
  unfold readQuantizedHead at h
  obtain ⟨_, _, _, h⟩ := Rd.bind_ok.mp h
  obtain ⟨_, _, _, h⟩ := Rd.bind_ok.mp h
  obtain ⟨r', _, hr, h⟩ := Rd.bind_ok.mp h
  obtain ⟨_, _, _, h⟩ := Rd.bind_ok.mp h
  cases h
  unfold readPq at hr
  obtain ⟨_, _, _, hr⟩ := Rd.bind_ok.mp hr
  obtain ⟨_, _, _, hr⟩ := Rd.bind_ok.mp hr
  obtain ⟨_, _, _, hr⟩ := Rd.bind_ok.mp hr
  obtain ⟨_, _, _, hr⟩ := Rd.bind_ok.mp hr
  obtain ⟨_, _, _, hr⟩ := Rd.bind_ok.mp hr
  obtain ⟨_, _, _, hr⟩ := Rd.bind_ok.mp hr
  obtain ⟨_, _, _, hr⟩ := Rd.bind_ok.mp hr
  split at hr
  · cases hr
  · obtain ⟨_, _, _, hr⟩ := Rd.bind_ok.mp hr
    obtain ⟨_, _, _, hr⟩ := Rd.bind_ok.mp hr
    obtain ⟨_, _, _, hr⟩ := Rd.bind_ok.mp hr
    obtain ⟨_, _, _, hr⟩ := Rd.bind_ok.mp hr
    obtain ⟨q, _, hq, hr⟩ := Rd.bind_ok.mp hr
    cases hr
    obtain ⟨hq, _⟩ := Rd.lift_ok.mp hq
    unfold Pq.new at hq
    obtain ⟨_, ha, hq⟩ := bind_eq_ok.mp hq
    obtain ⟨_, _, hq⟩ := bind_eq_ok.mp hq
    cases hq
    show 0 < List.length _
    apply Nat.pos_of_ne_zero
    intro h0
    rw [h0] at ha
    simp at ha

/-- Specification: two storages cannot be told apart by lookups (single, batch), shape or row mapping. -/
def SameRows {S T F : Type} [Storage S F] [Storage T F] (s : S) (t : T) : Prop :=
  shape s = shape t ∧ (∀ i, embedding s i = embedding t i) ∧ ∀ is, embeddings s is = embeddings t is

theorem mem_range_row {α : Type} {n k : Nat} {xs : List α} (i : Nat) :
    (Mat.ofFlat n k xs).row i = if i < n then .ok ((xs.drop (i * k)).take k) else .panic := by
  show Res.unwrap (chunks n k xs)[i]? = _
  by_cases h : i < n
  · rw [if_pos h, getElem?_chunks h]; rfl
  · rw [if_neg h, List.getElem?_eq_none (by simp; omega)]; rfl

theorem mapM_range_row {α : Type} (m : Mat α) : (List.range m.nrows).mapM m.row = .ok m.rows := by
  rw [mapM_eq_ok_iff]
  apply List.ext_getElem?
  intro i
  simp only [List.getElem?_map]
  by_cases h : i < m.nrows
  · have h' : i < m.rows.length := h
    rw [List.getElem?_range h, Option.map_some, List.getElem?_eq_getElem h', Option.map_some]
    show some (Res.unwrap m.rows[i]?) = _
    rw [List.getElem?_eq_getElem h']; rfl
  · have h' : m.rows.length ≤ i := Nat.le_of_not_lt h
    rw [List.getElem?_eq_none (by simp only [List.length_range]; exact h'), List.getElem?_eq_none h']; rfl

/-- C21 for dense arrays: if a chunk can be read into memory, it can be memory mapped, ending at the same
position, with the same shape, vectors and row mappings, and it is written back with the same bytes. -/
theorem c21_array (d : Bytes) (pos p : Nat) (a : NdArray F32)
    (h : (readChunk : Rd (NdArray F32)) d pos = .ok (a, p)) :
    ∃ m, mmapNdArray d pos = .ok (m, p) ∧ SameRows m a ∧ view m = view a ∧
      (∀ mapping, (cloneFromMapping m mapping : Res (NdArray F32)) = cloneFromMapping a mapping) ∧
      ∀ off, writeChunk m off = writeChunk a off ∧ chunkLen m off = chunkLen a off := by
  have h : readNdArray d pos = .ok (a, p) := h
  unfold readNdArray at h
  obtain ⟨⟨rows, cols⟩, p1, hh, h⟩ := Rd.bind_ok.mp h
  dsimp only at h
  obtain ⟨_, p2, ha, h2⟩ := Rd.bind_ok.mp h
  clear h
  obtain ⟨ha', hp2⟩ := allocArray_ok ha
  subst p2
  simp only [List.prod_cons, List.prod_nil, Nat.mul_one] at ha'
  obtain ⟨data, p3, hd, h⟩ := Rd.bind_ok.mp h2
  cases h
  unfold readF32s at hd
  obtain ⟨bs, p4, hb, hd⟩ := Rd.bind_ok.mp hd
  cases hd
  obtain ⟨rfl, rfl, hlen⟩ := readExact_ok hb
  have husz : isizeMax ≤ usizeMax := by decide
  have hmap : mmapNdArray d pos = .ok (⟨⟨d, p1, rows * cols * 4⟩, rows, cols⟩, p1 + 4 * (rows * cols)) := by
    unfold mmapNdArray
    rw [bind_apply, hh]
    simp only [ok_bind]
    rw [bind_apply, Rd.lift_apply, decide_eq_true (by omega)]
    simp only [assert_true, map_ok, ok_bind]
    rw [bind_apply, mapRegion, if_pos (by omega)]
    simp only [ok_bind]
    rw [Nat.mul_comm (rows * cols) 4]; rfl
  have hrow : ∀ i, MmapArray.row ⟨⟨d, p1, rows * cols * 4⟩, rows, cols⟩ i =
      (Mat.ofFlat rows cols (decodeF32s (rows * cols) ((d.drop p1).take (4 * (rows * cols))))).row i := by
    intro i
    rw [mem_range_row]
    unfold MmapArray.row
    dsimp only
    by_cases hi : i < rows
    · rw [if_pos hi, if_pos hi]
      have hic : i * cols + cols ≤ rows * cols := by
        have := Nat.mul_le_mul_right cols (show i + 1 ≤ rows from hi)
        rwa [Nat.add_mul, Nat.one_mul] at this
      rw [decodeF32s_drop, decodeF32s_take (by omega), List.drop_take, List.drop_drop]
      by_cases hc : 4 * cols = 0
      · have : cols = 0 := by omega
        subst this; rfl
      · rw [Mmap.slice_of_le hc]
        · simp only [map_ok]
          rw [decodeF32s_take_bytes]
          congr 1
          rw [← decodeF32s_take_bytes cols (List.take _ _), List.take_take,
            Nat.min_eq_left (by omega), decodeF32s_take_bytes]
        all_goals
          dsimp only
          have := hlen (by omega)
          omega
    · rw [if_neg hi, if_neg hi]
  have hrow' := funext hrow
  have hview : view (⟨⟨d, p1, rows * cols * 4⟩, rows, cols⟩ : MmapArray) =
      .ok (Mat.ofFlat rows cols (decodeF32s (rows * cols) ((d.drop p1).take (4 * (rows * cols))))) := by
    show ((List.range rows).mapM (MmapArray.row _)).map _ = _
    rw [hrow']
    have := mapM_range_row (Mat.ofFlat rows cols (decodeF32s (rows * cols) ((d.drop p1).take (4 * (rows * cols)))))
    rw [Mat.ofFlat_nrows] at this
    rw [this]; rfl
  have hembs : ∀ is, embeddings (⟨⟨d, p1, rows * cols * 4⟩, rows, cols⟩ : MmapArray) is =
      embeddings (NdArray.mk (Mat.ofFlat rows cols (decodeF32s (rows * cols) ((d.drop p1).take (4 * (rows * cols)))))) is := by
    intro is
    show (is.mapM (MmapArray.row _)).map _ = Mat.select _ is
    rw [hrow', select_eq]; rfl
  refine ⟨_, hmap, ⟨?_, hrow, hembs⟩, hview, ?_, fun off => ⟨?_, ?_⟩⟩
  · show (rows, cols) = (Mat.nrows _, _)
    rw [Mat.ofFlat_nrows]; rfl
  · intro mapping
    show (embeddings _ mapping).map NdArray.mk = (Mat.select _ mapping).map NdArray.mk
    rw [hembs]; rfl
  · show W.ofView (view _) _ = _
    rw [hview]; rfl
  · show ndArrayLen (rows * cols) off = ndArrayLen (Mat.len _) off
    rw [Mat.len, Mat.ofFlat_nrows]; rfl

/-- C21 for quantized arrays. -/
theorem c21_quantized [Scalar F32] (d : Bytes) (pos p : Nat) (a : QuantizedArray F32)
    (h : (readChunk : Rd (QuantizedArray F32)) d pos = .ok (a, p)) :
    ∃ m, mmapQuantizedArray d pos = .ok (m, p) ∧ SameRows m a ∧
      m.reconstruct = a.reconstruct ∧
      (∀ mapping, (cloneFromMapping m mapping : Res (QuantizedArray F32)) = cloneFromMapping a mapping) ∧
      ∀ off, writeChunk m off = writeChunk a off ∧ chunkLen m off = chunkLen a off := by
  have h : readQuantizedArray d pos = .ok (a, p) := h
  unfold readQuantizedArray at h
  obtain ⟨⟨r, norms⟩, p1, hh, h⟩ := Rd.bind_ok.mp h
  dsimp only at h
  obtain ⟨_, p2, ha, h2⟩ := Rd.bind_ok.mp h
  clear h
  obtain ⟨ha', hp2⟩ := allocArray_ok ha
  subst p2
  simp only [List.prod_cons, List.prod_nil, Nat.mul_one, Nat.one_mul] at ha'
  obtain ⟨bs, p3, hb, h⟩ := Rd.bind_ok.mp h2
  cases h
  obtain ⟨rfl, rfl, hlen⟩ := readExact_ok hb
  have hq : 0 < r.quantizer.quantizedLen := readQuantizedHead_ne hh
  generalize hn : r.nEmbeddings = n at *
  generalize hql : r.quantizer.quantizedLen = k at *
  have husz : isizeMax ≤ usizeMax := by decide
  have hmap : mmapQuantizedArray d pos = .ok (⟨r.quantizer, ⟨d, p1, n * k⟩, norms⟩, p1 + n * k) := by
    unfold mmapQuantizedArray
    rw [bind_apply, hh]
    simp only [ok_bind, hn, hql]
    rw [bind_apply, Rd.lift_apply, decide_eq_true (by omega)]
    simp only [assert_true, map_ok, ok_bind]
    rw [bind_apply, mapRegion, if_pos (by omega)]
    rfl
  have hnr : MmapQuantizedArray.nRows ⟨r.quantizer, ⟨d, p1, n * k⟩, norms⟩ = n := by
    show n * k / r.quantizer.quantizedLen = n
    rw [hql]; exact Nat.mul_div_cancel _ hq
  have hrow : ∀ i, MmapQuantizedArray.code ⟨r.quantizer, ⟨d, p1, n * k⟩, norms⟩ i =
      (Mat.ofFlat n k ((d.drop p1).take (n * k))).row i := by
    intro i
    rw [mem_range_row]
    unfold MmapQuantizedArray.code
    rw [hnr]
    dsimp only
    by_cases hi : i < n
    · rw [if_pos hi, if_pos hi, hql]
      have hic : i * k + k ≤ n * k := by
        have := Nat.mul_le_mul_right k (show i + 1 ≤ n from hi)
        rwa [Nat.add_mul, Nat.one_mul] at this
      rw [List.drop_take, List.drop_drop, List.take_take, Nat.min_eq_left (by omega)]
      rw [Mmap.slice_of_le (by omega)]
      all_goals
        have := hlen (by omega)
        dsimp only
        omega
    · rw [if_neg hi, if_neg hi]
  have hrow' := funext hrow
  have hsel : MmapQuantizedArray.select ⟨r.quantizer, ⟨d, p1, n * k⟩, norms⟩ =
      (Mat.ofFlat n k ((d.drop p1).take (n * k))).select := by
    funext is
    rw [select_eq]
    unfold MmapQuantizedArray.select
    rw [hrow']
    dsimp only
    rw [hql]; rfl
  have hview : MmapQuantizedArray.codesView ⟨r.quantizer, ⟨d, p1, n * k⟩, norms⟩ =
      .ok (Mat.ofFlat n k ((d.drop p1).take (n * k))) := by
    unfold MmapQuantizedArray.codesView
    rw [hnr, hsel, select_eq]
    have := mapM_range_row (Mat.ofFlat n k ((d.drop p1).take (n * k)))
    rw [Mat.ofFlat_nrows] at this
    rw [this]; rfl
  refine ⟨_, hmap, ⟨?_, ?_, ?_⟩, ?_, ?_, fun off => ⟨?_, ?_⟩⟩
  · show (MmapQuantizedArray.nRows _, _) = (Mat.nrows _, _)
    rw [hnr, Mat.ofFlat_nrows]
  · intro i
    show quantizedRow _ _ (MmapQuantizedArray.code _) i = _
    rw [hrow']; rfl
  · intro is
    show quantizedRows _ _ (MmapQuantizedArray.select _) is = _
    rw [hsel]; rfl
  · unfold MmapQuantizedArray.reconstruct
    rw [hview]; rfl
  · intro mapping
    show (do
      let codes ← MmapQuantizedArray.select _ mapping
      let norms ← selectNorms _ mapping
      return QuantizedArray.mk _ codes norms) = _
    rw [hsel]; rfl
  · show W.ofView (MmapQuantizedArray.codesView _) _ = _
    rw [hview]; rfl
  · show quantizedArrayLen _ (MmapQuantizedArray.nRows _) _ off = quantizedArrayLen _ (Mat.nrows _) _ off
    rw [hnr, Mat.ofFlat_nrows]

example : ∃ p, (readChunk : Rd (NdArray F32)) (writeChunk (NdArray.mk (⟨2, [[1, 2], [3, 0x7fc00001]]⟩ : Mat F32)) 0).bytes 0 =
    .ok (⟨⟨2, [[1, 2], [3, 0x7fc00001]]⟩⟩, p) := ⟨48, by decide +kernel⟩

example : ∃ p, (readChunk : Rd (QuantizedArray F32)) (writeChunk exampleQuantized 0).bytes 0 =
    .ok (exampleQuantized, p) := ⟨166, by decide +kernel⟩

/-- `c21_array` and `c21_quantized` applied to these chunks. -/
example := c21_array (writeChunk (NdArray.mk (⟨2, [[1, 2], [3, 0x7fc00001]]⟩ : Mat F32)) 0).bytes 0 48
  ⟨⟨2, [[1, 2], [3, 0x7fc00001]]⟩⟩ (by decide +kernel)
example [Scalar F32] := c21_quantized (writeChunk exampleQuantized 0).bytes 0 166 exampleQuantized (by decide +kernel)

/-- C21 for the storage wrapper: if a chunk can be read as `StorageWrap`, it can be mapped as `StorageWrap`,
with the same end position, shape, vectors and written bytes. -/
theorem c21_wrap [Scalar F32] (d : Bytes) (pos p : Nat) (a : StorageWrap)
    (h : (readChunk : Rd StorageWrap) d pos = .ok (a, p)) :
    ∃ m, mmapStorageWrap d pos = .ok (m, p) ∧ SameRows m a ∧
      ∀ off, writeChunk m off = writeChunk a off ∧ chunkLen m off = chunkLen a off := by
  have h : readStorageWrap d pos = .ok (a, p) := h
  cases hu : u32At d pos with
  | none => rw [(c16_storage.2.2.1 d pos).1 hu] at h; cases h
  | some c =>
    by_cases h2 : c = 2
    · subst h2
      rw [c16_storage.1 d pos hu] at h
      obtain ⟨⟨a', p'⟩, ha, e⟩ := map_eq_ok.mp h
      cases e
      obtain ⟨m, hm, hs, _, _, hw⟩ := c21_array d pos _ a' ha
      exact ⟨.mmapArray m, by rw [c16_storage.2.2.2.1 d pos hu, hm]; rfl, hs, hw⟩
    · by_cases h4 : c = 4
      · subst h4
        rw [c16_storage.2.1 d pos hu] at h
        obtain ⟨⟨a', p'⟩, ha, e⟩ := map_eq_ok.mp h
        cases e
        obtain ⟨m, hm, hs, _, _, hw⟩ := c21_quantized d pos _ a' ha
        exact ⟨.mmapQuantized m, by rw [c16_storage.2.2.2.2.1 d pos hu, hm]; rfl, hs, hw⟩
      · rw [(c16_storage.2.2.1 d pos).2 c hu (by simp [h2, h4])] at h; cases h

/-- `c21_wrap` applied to a quantized chunk. -/
example [Scalar F32] := c21_wrap (writeChunk exampleQuantized 0).bytes 0 166 (.quantized exampleQuantized)
  (by decide +kernel)

/-! ## C59: truncated files -/

/-- C59 is false: the last byte of this array chunk is missing. Reading fails, but memory mapping succeeds,
and looking up the last row returns a wrong vector: the missing byte reads as zero. -/
theorem c59_false : ∃ (a : NdArray F32) (m : MmapArray) (d : Bytes),
    (writeChunk a 0).bytes = d ++ [0x40] ∧
    (readChunk : Rd (NdArray F32)) d 0 = .err .io ∧
    mmapNdArray d 0 = .ok (m, d.length + 1) ∧ shape m = shape a ∧
    embedding m 0 = embedding a 0 ∧ embedding a 1 = .ok [3, 0x40000000] ∧ embedding m 1 = .ok [3, 0] := by
  refine ⟨⟨⟨2, [[1, 2], [3, 0x40000000]]⟩⟩,
    ⟨⟨(writeChunk (NdArray.mk (⟨2, [[1, 2], [3, 0x40000000]]⟩ : Mat F32)) 0).bytes.take 47, 32, 16⟩, 2, 2⟩,
    (writeChunk (NdArray.mk (⟨2, [[1, 2], [3, 0x40000000]]⟩ : Mat F32)) 0).bytes.take 47, ?_, ?_, ?_, ?_, ?_, ?_, ?_⟩ <;>
    decide +kernel

/-- C59 is false: of an array with one long row, only the part before the data is present. Memory mapping succeeds,
and looking up the row crashes, because it reaches beyond the last page of the file. -/
theorem c59_crash_false : ∃ (a : NdArray F32) (m : MmapArray) (d rest : Bytes),
    (writeChunk a 0).bytes = d ++ rest ∧
    mmapNdArray d 0 = .ok (m, d.length + rest.length) ∧ shape m = shape a ∧
    embedding a 0 = .ok (List.replicate 1200 7) ∧ embedding m 0 = .panic := by
  refine ⟨⟨⟨1200, [List.replicate 1200 7]⟩⟩,
    ⟨⟨(writeChunk (NdArray.mk (⟨1200, [List.replicate 1200 7]⟩ : Mat F32)) 0).bytes.take 32, 32, 4800⟩, 1, 1200⟩,
    (writeChunk (NdArray.mk (⟨1200, [List.replicate 1200 7]⟩ : Mat F32)) 0).bytes.take 32,
    (writeChunk (NdArray.mk (⟨1200, [List.replicate 1200 7]⟩ : Mat F32)) 0).bytes.drop 32, ?_, ?_, ?_, ?_, ?_⟩
  · exact (List.take_append_drop _ _).symm
  · decide +kernel
  · decide +kernel
  · decide +kernel
  · decide +kernel

theorem mapRegion_ok {n : Nat} {d : Bytes} {pos p : Nat} {m : Mmap} (h : mapRegion n d pos = .ok (m, p)) :
    m = ⟨d, pos, n⟩ ∧ p = pos + n := by
  unfold mapRegion at h
  split at h
  · cases h; exact ⟨rfl, rfl⟩
  · cases h

/-- C59, what holds: if the file reaches to the end of the mapped chunk, no lookup of a row of the matrix
crashes, and the vector has the right length. -/
theorem c59_partial (d : Bytes) (pos p : Nat) (m : MmapArray) (h : mmapNdArray d pos = .ok (m, p))
    (hp : p ≤ d.length) (i : Nat) (hi : i < (shape m).1) :
    ∃ v, embedding m i = .ok v ∧ v.length = (shape m).2 := by
  unfold mmapNdArray at h
  obtain ⟨⟨rows, cols⟩, p1, hh, h⟩ := Rd.bind_ok.mp h
  dsimp only at h
  obtain ⟨_, p2, ha, h2⟩ := Rd.bind_ok.mp h
  obtain ⟨ha', hp2⟩ := Rd.assert_ok.mp ha
  subst p2
  obtain ⟨mp, p3, hm, h3⟩ := Rd.bind_ok.mp h2
  cases h3
  obtain ⟨rfl, rfl⟩ := mapRegion_ok hm
  have hi : i < rows := hi
  have hic : i * cols + cols ≤ rows * cols := by
    have := Nat.mul_le_mul_right cols (show i + 1 ≤ rows from hi)
    rwa [Nat.add_mul, Nat.one_mul] at this
  show ∃ v : List F32, MmapArray.row _ i = _ ∧ v.length = cols
  unfold MmapArray.row
  dsimp only
  rw [if_pos hi]
  by_cases hc : 4 * cols = 0
  · rw [hc]; exact ⟨_, rfl, by simp⟩
  · rw [Mmap.slice_of_le hc (by dsimp only; omega) (by dsimp only; omega)]; exact ⟨_, rfl, by simp⟩

/-- `c59_partial` applied to the second row of an array. -/
example := c59_partial (writeChunk (NdArray.mk (⟨2, [[1, 2], [3, 4]]⟩ : Mat F32)) 0).bytes 0 48
  ⟨⟨(writeChunk (NdArray.mk (⟨2, [[1, 2], [3, 4]]⟩ : Mat F32)) 0).bytes, 32, 16⟩, 2, 2⟩ (by decide +kernel)
  (by decide +kernel) 1 (by decide)

example : ∃ m, mmapNdArray (writeChunk (NdArray.mk (⟨2, [[1, 2], [3, 4]]⟩ : Mat F32)) 0).bytes 0 = .ok (m, 48) :=
  ⟨⟨⟨(writeChunk (NdArray.mk (⟨2, [[1, 2], [3, 4]]⟩ : Mat F32)) 0).bytes, 32, 16⟩, 2, 2⟩, by decide +kernel⟩

end FF
