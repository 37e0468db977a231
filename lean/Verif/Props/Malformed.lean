import Verif.Lemmas.Panics
import Verif.Lemmas.Indexers
import Verif.Props.EmbeddingsIO

/-!
# Malformed finalfusion input (C56)

For each reader: exactly which data make it panic. Fields are described by their position from the start of the
chunk (`u32At`, `u64At`, `StringsAt`, `NumberedStringsAt`).
-/

namespace FF

open Rd Res

/-! ## Chunks without words -/

/-- C56, header: never panics. -/
theorem c56_header (d : Bytes) (pos : Nat) : Header.read d pos ≠ .panic := by
  intro h
  unfold Header.read at h
  rw [readExact_panic, if_fail_panic, readU32_panic] at h
  obtain ⟨_, _, v, _, h⟩ := h
  rw [if_fail_panic, readU32_panic] at h
  obtain ⟨_, n, hn, h⟩ := h
  have := u32At_lt hn
  rw [alloc_panic, (readChunkId_noPanic.replicateM n).bind_panic] at h
  rcases h with h | ⟨_, _, _, h⟩
  · unfold isizeMax at h; omega
  · exact pure_panic.mp h

/-- C56, metadata: panics exactly for a length above `isize::MAX`. -/
theorem c56_metadata {T : Type} [Toml T] (d : Bytes) (pos : Nat) :
    (readMetadata : Rd (Metadata T)) d pos = .panic ↔
      u32At d pos = some ChunkId.metadata.code ∧ ∃ n, u64At d (pos + 4) = some n ∧ 2 ^ 63 ≤ n := by
  unfold readMetadata
  rw [ensureChunkType_panic (by decide), readU64_panic]
  refine and_congr_right fun _ => exists_congr fun n => and_congr_right fun _ => ?_
  rw [alloc_panic, readExact_panic, lift_panic]
  constructor
  · rintro (h | ⟨_, h | ⟨_, _, h⟩⟩)
    · unfold isizeMax at h; omega
    · exact absurd h (ofOption_ne_panic _ _)
    · rw [lift_panic] at h
      rcases h with h | ⟨_, _, h⟩
      · exact absurd h (ofOption_ne_panic _ _)
      · exact (pure_panic.mp h).elim
  · intro h; left; unfold isizeMax; omega

/-- C56, norms: panics exactly if the norms would not fit into `isize::MAX` bytes. -/
theorem c56_norms (d : Bytes) (pos : Nat) :
    readNorms d pos = .panic ↔
      u32At d pos = some ChunkId.ndNorms.code ∧ (∃ l, u64At d (pos + 4) = some l) ∧
      ∃ n, u64At d (pos + 12) = some n ∧ u32At d (pos + 20) = some 10 ∧ isizeMax < 4 * n := by
  unfold readNorms
  rw [ensureChunkType_panic (by decide), readU64_panic]
  refine and_congr_right fun _ => ?_
  constructor
  · rintro ⟨l, hl, h⟩
    refine ⟨⟨l, hl⟩, ?_⟩
    rw [readU64_panic] at h
    obtain ⟨n, hn, h⟩ := h
    rw [ensureDataType_panic, position_panic, skip_panic, allocArray_panic, readF32s_panic] at h
    obtain ⟨ht, h | ⟨_, h⟩⟩ := h
    · refine ⟨n, hn, ht, ?_⟩
      rcases h with h | h
      · by_cases h0 : n = 0
        · subst h0; simp [isizeMax] at h
        · simp [h0] at h; omega
      · simpa using h
    · exact (pure_panic.mp h).elim
  · rintro ⟨⟨l, hl⟩, n, hn, ht, h⟩
    refine ⟨l, hl, ?_⟩
    rw [readU64_panic]
    refine ⟨n, hn, ?_⟩
    rw [ensureDataType_panic, position_panic, skip_panic, allocArray_panic]
    exact ⟨ht, .inl (.inr (by simpa using h))⟩

/-- Specification: an array chunk with these dimensions starts at the position. -/
def ArrayHeadAt (d : Bytes) (pos rows cols : Nat) : Prop :=
  u32At d pos = some ChunkId.ndArray.code ∧ (∃ l, u64At d (pos + 4) = some l) ∧ u64At d (pos + 12) = some rows ∧
    u32At d (pos + 20) = some cols ∧ u32At d (pos + 24) = some 10

theorem readNdArrayHead_ok {d : Bytes} {pos q rows cols : Nat} :
    readNdArrayHead d pos = .ok ((rows, cols), q) ↔
      ArrayHeadAt d pos rows cols ∧ q = pos + 28 + padding 4 (pos + 28) := by
  unfold readNdArrayHead ArrayHeadAt
  constructor
  · intro h
    obtain ⟨_, p1, h1, h⟩ := Rd.bind_ok.mp h
    obtain ⟨k1, rfl⟩ := ensureChunkType_ok h1
    obtain ⟨l, p2, h2, h⟩ := Rd.bind_ok.mp h
    obtain ⟨k2, rfl⟩ := readU64_ok h2
    obtain ⟨r, p3, h3, h⟩ := Rd.bind_ok.mp h
    obtain ⟨k3, rfl⟩ := readU64_ok h3
    obtain ⟨c, p4, h4, h⟩ := Rd.bind_ok.mp h
    obtain ⟨k4, rfl⟩ := readU32_ok h4
    obtain ⟨_, p5, h5, h⟩ := Rd.bind_ok.mp h
    obtain ⟨k5, rfl⟩ := ensureDataType_ok h5
    cases h
    exact ⟨⟨k1, ⟨l, k2⟩, k3, k4, k5⟩, rfl⟩
  · rintro ⟨⟨k1, ⟨l, k2⟩, k3, k4, k5⟩, rfl⟩
    rw [Rd.bind_ok]; refine ⟨_, _, ensureChunkType_some (by decide) k1, ?_⟩
    rw [Rd.bind_ok]; refine ⟨_, _, readU64_some k2, ?_⟩
    rw [Rd.bind_ok]; refine ⟨_, _, readU64_some k3, ?_⟩
    rw [Rd.bind_ok]; refine ⟨_, _, readU32_some k4, ?_⟩
    rw [Rd.bind_ok]; refine ⟨_, _, ensureDataType_some k5, ?_⟩
    rfl

theorem readNdArrayHead_noPanic : NoPanic readNdArrayHead :=
  .bind (ensureChunkType_noPanic _) fun _ => .bind .readU64 fun _ => .bind .readU64 fun _ => .bind .readU32 fun _ =>
    .bind (ensureDataType_noPanic _) fun _ => .bind .position fun _ => .bind (.skip _) fun _ => .pure _

/-- C56, arrays: panics exactly if the announced matrix is too big for the address space. -/
theorem c56_array (d : Bytes) (pos : Nat) :
    readNdArray d pos = .panic ↔ ∃ rows cols, ArrayHeadAt d pos rows cols ∧ TooBig 4 [rows, cols] := by
  unfold readNdArray
  rw [readNdArrayHead_noPanic.bind_panic]
  constructor
  · rintro ⟨⟨r, c⟩, q, h, h'⟩
    refine ⟨r, c, (readNdArrayHead_ok.mp h).1, ?_⟩
    rw [allocArray_panic, readF32s_panic] at h'
    rcases h' with h' | ⟨_, h'⟩
    · exact h'
    · exact (pure_panic.mp h').elim
  · rintro ⟨r, c, h, h'⟩
    refine ⟨(r, c), _, readNdArrayHead_ok.mpr ⟨h, rfl⟩, ?_⟩
    rw [allocArray_panic]
    exact .inl h'

/-- C56, mapped arrays: panics exactly if the size in bytes overflows. -/
theorem c56_mmap_array (d : Bytes) (pos : Nat) :
    mmapNdArray d pos = .panic ↔ ∃ rows cols, ArrayHeadAt d pos rows cols ∧ usizeMax < rows * cols * 4 := by
  unfold mmapNdArray
  rw [readNdArrayHead_noPanic.bind_panic]
  have hmap : ∀ n, NoPanic (mapRegion n) := by
    intro n d pos
    unfold mapRegion; split <;> simp
  constructor
  · rintro ⟨⟨r, c⟩, q, h, h'⟩
    refine ⟨r, c, (readNdArrayHead_ok.mp h).1, ?_⟩
    rw [assert_panic, (hmap _).bind_panic] at h'
    rcases h' with h' | ⟨_, _, _, h'⟩
    · exact Nat.not_le.mp h'
    · exact (pure_panic.mp h').elim
  · rintro ⟨r, c, h, h'⟩
    refine ⟨(r, c), _, readNdArrayHead_ok.mpr ⟨h, rfl⟩, ?_⟩
    rw [assert_panic]
    exact .inl (Nat.not_le.mpr h')

/-! ## Quantized arrays -/

/-- Specification: the fields of the head of a quantized-array chunk. -/
structure QuantizedFields where
  projection : Nat
  norms : Nat
  quantizedLen : Nat
  reconstructedLen : Nat
  nCentroids : Nat
  nEmbeddings : Nat

/-- Specification: a quantized-array chunk with these fields starts at the position. -/
def QuantizedHeadAt (d : Bytes) (pos : Nat) (f : QuantizedFields) : Prop :=
  u32At d pos = some ChunkId.quantizedArray.code ∧ (∃ l, u64At d (pos + 4) = some l) ∧
  u32At d (pos + 12) = some f.projection ∧ u32At d (pos + 16) = some f.norms ∧
  u32At d (pos + 20) = some f.quantizedLen ∧ u32At d (pos + 24) = some f.reconstructedLen ∧
  u32At d (pos + 28) = some f.nCentroids ∧ u64At d (pos + 32) = some f.nEmbeddings

/-- Specification: the lengths are consistent and the element types are right. -/
def QuantizedFields.Valid (f : QuantizedFields) (d : Bytes) (pos : Nat) : Prop :=
  f.reconstructedLen % f.quantizedLen = 0 ∧ u32At d (pos + 40) = some 1 ∧ u32At d (pos + 44) = some 10

/-- Specification: where the projection, the sub-quantizers, the norms and the codes start. -/
def QuantizedFields.projectionPos (pos : Nat) : Nat := pos + 48 + padding 4 (pos + 48)
/-- Specification: bytes of the projection. -/
def QuantizedFields.projectionBytes (f : QuantizedFields) : Nat :=
  if f.projection ≠ 0 then 4 * (f.reconstructedLen * f.reconstructedLen) else 0
/-- Specification: bytes of the sub-quantizers. -/
def QuantizedFields.quantizerBytes (f : QuantizedFields) : Nat :=
  4 * (f.quantizedLen * (f.nCentroids * (f.reconstructedLen / f.quantizedLen)))
/-- Specification: bytes of the norms. -/
def QuantizedFields.normBytes (f : QuantizedFields) : Nat := if f.norms ≠ 0 then 4 * f.nEmbeddings else 0

/-- Specification: the head makes the reader panic before it comes to the codes: no sub-quantizers; or the head is
valid and a part is too big while all parts before it are there, or there are no centroids or no components. -/
def QuantizedHeadPanics (d : Bytes) (pos : Nat) (f : QuantizedFields) : Prop :=
  f.quantizedLen = 0 ∨ f.Valid d pos ∧
    (f.projection ≠ 0 ∧ TooBig 4 [f.reconstructedLen, f.reconstructedLen] ∨
     Present d (QuantizedFields.projectionPos pos) f.projectionBytes ∧
      (TooBig 4 [f.quantizedLen, f.nCentroids, f.reconstructedLen / f.quantizedLen] ∨
       Present d (QuantizedFields.projectionPos pos + f.projectionBytes) f.quantizerBytes ∧
        (f.nCentroids = 0 ∨ f.reconstructedLen = 0 ∨
         f.norms ≠ 0 ∧ isizeMax < 4 * f.nEmbeddings)))

/-- Specification: the head is valid and everything before the codes is there. -/
def QuantizedHeadOk (d : Bytes) (pos : Nat) (f : QuantizedFields) : Prop :=
  f.quantizedLen ≠ 0 ∧ f.Valid d pos ∧
    Present d (QuantizedFields.projectionPos pos) f.projectionBytes ∧
    Present d (QuantizedFields.projectionPos pos + f.projectionBytes) f.quantizerBytes ∧
    f.nCentroids ≠ 0 ∧ f.reconstructedLen ≠ 0 ∧
    Present d (QuantizedFields.projectionPos pos + f.projectionBytes + f.quantizerBytes) f.normBytes

theorem readProjection_eq (flag n : Nat) : readProjection flag n =
    (do
      let p ← position
      skip (padding 4 p)
      if flag ≠ 0 then do
        allocArray 4 [n, n]
        let xs ← readF32s (n * n)
        return some (Mat.ofFlat n n xs)
      else return none) := rfl

/-- The projection that is read. -/
def projectionAt (d : Bytes) (p flag n : Nat) : Option (Mat F32) :=
  if flag ≠ 0 then some (Mat.ofFlat n n (decodeF32s (n * n) ((d.drop p).take (4 * (n * n))))) else none

theorem readProjection_panic {β : Type} {flag n : Nat} {d : Bytes} {pos : Nat} {g : Option (Mat F32) → Rd β} :
    (readProjection flag n >>= g) d pos = .panic ↔
      (flag ≠ 0 ∧ TooBig 4 [n, n]) ∨
      Present d (pos + padding 4 pos) (if flag ≠ 0 then 4 * (n * n) else 0) ∧
        g (projectionAt d (pos + padding 4 pos) flag n) d
          (pos + padding 4 pos + if flag ≠ 0 then 4 * (n * n) else 0) = .panic := by
  rw [readProjection_eq]
  simp only [bind_assoc]
  rw [position_panic, skip_panic]
  unfold projectionAt
  by_cases hf : flag ≠ 0
  · simp only [if_pos hf, bind_assoc]
    rw [allocArray_panic, readF32s_panic]
    simp only [hf, not_false_eq_true, true_and, ne_eq]
    rfl
  · simp only [if_neg hf]
    constructor
    · intro h; exact .inr ⟨.inl rfl, h⟩
    · rintro (h | h)
      · exact absurd h.1 hf
      · exact h.2

theorem Pq.new_panic {F : Type} {proj : Option (Mat F)} {c s : Nat} {qs : List (Mat F)}
    (hp : ∀ p, proj = some p → p.dim = (qs.length * s, qs.length * s)) :
    Pq.new proj c s qs = .panic ↔ qs.length = 0 ∨ c = 0 ∨ s = 0 := by
  unfold Pq.new
  have h2 : (proj.all fun p => decide (p.dim = (qs.length * s, qs.length * s))) = true := by
    cases proj with
    | none => rfl
    | some p => simp [hp p rfl]
  rw [h2]
  have : (qs.length = 0 ∨ c = 0 ∨ s = 0) ↔ qs.length * c * s = 0 := by
    rw [Nat.mul_eq_zero, Nat.mul_eq_zero, or_assoc]
  rw [this]
  by_cases h0 : qs.length * c * s = 0 <;> simp [h0, Res.assert]

theorem Pq.new_ok {F : Type} {proj : Option (Mat F)} {c s : Nat} {qs : List (Mat F)} {q : Pq F}
    (h : Pq.new proj c s qs = .ok q) : q.quantizedLen = qs.length := by
  unfold Pq.new at h
  obtain ⟨_, _, h⟩ := bind_eq_ok.mp h
  obtain ⟨_, _, h⟩ := bind_eq_ok.mp h
  cases h; rfl

theorem Pq.new_noErr {F : Type} (proj : Option (Mat F)) (c s : Nat) (qs : List (Mat F)) : NoErr (Pq.new proj c s qs) := by
  intro e h
  unfold Pq.new at h
  by_cases h1 : qs.length * c * s ≠ 0
  · simp only [h1, decide_true, Res.assert, if_true, Res.ok_bind, not_false_eq_true, ne_eq] at h
    split at h <;> cases h
  · simp only [h1, decide_false, Res.assert] at h
    cases h

theorem readQuantizedNorms_panic {β : Type} {flag : Bool} {n : Nat} {d : Bytes} {pos : Nat}
    {g : Option (List F32) → Rd β} :
    (readQuantizedNorms flag n >>= g) d pos = .panic ↔
      (flag = true ∧ isizeMax < 4 * n) ∨
      Present d pos (if flag then 4 * n else 0) ∧
        g (if flag then some (decodeF32s n ((d.drop pos).take (4 * n))) else none) d
          (pos + if flag then 4 * n else 0) = .panic := by
  unfold readQuantizedNorms
  cases flag with
  | true =>
    simp only [if_true, bind_assoc, true_and]
    rw [allocArray_panic, readF32s_panic]
    have : TooBig 4 [n] ↔ isizeMax < 4 * n := by
      unfold TooBig
      by_cases h0 : n = 0
      · subst h0; simp [isizeMax]
      · simp [h0]; omega
    rw [this]; rfl
  | false =>
    constructor
    · intro h; exact .inr ⟨.inl rfl, h⟩
    · rintro (h | h)
      · cases h.1
      · exact h.2

/-- The part of the head behind the fixed fields. -/
theorem readQuantizedHead_panic {β : Type} {d : Bytes} {pos : Nat} {g : PqRead × Option (List F32) → Rd β}
    {T : QuantizedFields → Prop}
    (hg : ∀ f : QuantizedFields, ∀ r ns, r.nEmbeddings = f.nEmbeddings → r.quantizer.quantizedLen = f.quantizedLen →
      (g (r, ns) d (QuantizedFields.projectionPos pos + f.projectionBytes + f.quantizerBytes + f.normBytes) = .panic ↔ T f)) :
    (readQuantizedHead >>= g) d pos = .panic ↔
      ∃ f, QuantizedHeadAt d pos f ∧ (QuantizedHeadPanics d pos f ∨ QuantizedHeadOk d pos f ∧ T f) := by
  have main : ∀ f : QuantizedFields, QuantizedHeadAt d pos f →
      ((readQuantizedHead >>= g) d pos = .panic ↔ (QuantizedHeadPanics d pos f ∨ QuantizedHeadOk d pos f ∧ T f)) := by
    intro f hf
    obtain ⟨k1, ⟨l, k2⟩, k3, k4, k5, k6, k7, k8⟩ := hf
    unfold readQuantizedHead readPq
    simp only [bind_assoc]
    rw [ensureChunkType_panic (by decide), readU64_panic]
    simp only [k1, true_and, k2, Option.some.injEq, exists_eq_left']
    rw [readU32_panic]; simp only [Nat.add_assoc, Nat.reduceAdd, k3, Option.some.injEq, exists_eq_left']
    rw [readU32_panic]; simp only [Nat.add_assoc, Nat.reduceAdd, k4, Option.some.injEq, exists_eq_left']
    rw [readU32_panic]; simp only [Nat.add_assoc, Nat.reduceAdd, k5, Option.some.injEq, exists_eq_left']
    rw [readU32_panic]; simp only [Nat.add_assoc, Nat.reduceAdd, k6, Option.some.injEq, exists_eq_left']
    rw [readU32_panic]; simp only [Nat.add_assoc, Nat.reduceAdd, k7, Option.some.injEq, exists_eq_left']
    rw [readU64_panic]; simp only [Nat.add_assoc, Nat.reduceAdd, k8, Option.some.injEq, exists_eq_left']
    rw [assert_panic]
    have v1 : u8TypeId = 1 := rfl
    have v2 : f32TypeId = 10 := rfl
    by_cases hq : f.quantizedLen = 0
    · simp [hq, QuantizedHeadPanics]
    by_cases hm : f.reconstructedLen % f.quantizedLen = 0
    · rw [if_neg (by simp [hm])]
      simp only [bind_assoc]
      rw [ensureDataType_panic, ensureDataType_panic, readProjection_panic]
      unfold readQuantizers
      simp only [bind_assoc]
      rw [allocArray_panic, readF32s_panic]
      simp only [pure_bind]
      rw [lift_panic]
      generalize hpr : projectionAt d _ f.projection f.reconstructedLen = proj
      generalize hqs : List.map _ (chunks f.quantizedLen _ _) = qs
      have hlen : qs.length = f.quantizedLen := by rw [← hqs]; simp
      have hdiv : f.quantizedLen * (f.reconstructedLen / f.quantizedLen) = f.reconstructedLen :=
        Nat.mul_div_cancel' (Nat.dvd_of_mod_eq_zero hm)
      have hproj : ∀ p, proj = some p → p.dim = (qs.length * (f.reconstructedLen / f.quantizedLen),
          qs.length * (f.reconstructedLen / f.quantizedLen)) := by
        intro p hp
        rw [hlen, hdiv]
        rw [← hpr] at hp
        unfold projectionAt at hp
        split at hp
        · cases hp; simp [Mat.dim, Mat.nrows, Mat.ofFlat]
        · cases hp
      have hs0 : f.reconstructedLen / f.quantizedLen = 0 ↔ f.reconstructedLen = 0 := by
        constructor
        · intro h; rw [← hdiv, h]; rfl
        · intro h; rw [h]; simp
      have hnew := Pq.new_panic (c := f.nCentroids) hproj
      rw [hlen, hs0] at hnew
      have hcont : (∃ a, Pq.new proj f.nCentroids (f.reconstructedLen / f.quantizedLen) qs = .ok a ∧
          (readQuantizedNorms (decide (f.norms ≠ 0)) f.nEmbeddings >>= fun x_1 =>
            g (⟨f.nEmbeddings, a, decide (f.norms ≠ 0)⟩, x_1)) d
            (QuantizedFields.projectionPos pos + f.projectionBytes + f.quantizerBytes) = .panic) ↔
          (f.nCentroids ≠ 0 ∧ f.reconstructedLen ≠ 0) ∧
            ((f.norms ≠ 0 ∧ isizeMax < 4 * f.nEmbeddings) ∨
             Present d (QuantizedFields.projectionPos pos + f.projectionBytes + f.quantizerBytes) f.normBytes ∧ T f) := by
        have hN : f.normBytes = if decide (f.norms ≠ 0) = true then 4 * f.nEmbeddings else 0 := by
          simp [QuantizedFields.normBytes]
        constructor
        · rintro ⟨a, ha, h⟩
          have hne : ¬ (f.quantizedLen = 0 ∨ f.nCentroids = 0 ∨ f.reconstructedLen = 0) := by
            rw [← hnew, ha]; intro h; cases h
          have hal : a.quantizedLen = f.quantizedLen := by rw [Pq.new_ok ha, hlen]
          rw [readQuantizedNorms_panic, ← hN, hg f _ _ rfl hal] at h
          exact ⟨⟨fun h => hne (.inr (.inl h)), fun h => hne (.inr (.inr h))⟩, by simpa using h⟩
        · rintro ⟨⟨h1, h2⟩, h⟩
          cases ha : Pq.new proj f.nCentroids (f.reconstructedLen / f.quantizedLen) qs with
          | ok a =>
            have hal : a.quantizedLen = f.quantizedLen := by rw [Pq.new_ok ha, hlen]
            refine ⟨a, rfl, ?_⟩
            rw [readQuantizedNorms_panic, ← hN, hg f _ _ rfl hal]
            simpa using h
          | err e => exact absurd ha (Pq.new_noErr _ _ _ _ e)
          | panic => exact absurd (hnew.mp ha) (by simp [hq, h1, h2])
      have e1 : pos + 40 + 4 + 4 + padding 4 (pos + 40 + 4 + 4) = QuantizedFields.projectionPos pos := by
        unfold QuantizedFields.projectionPos; rfl
      have e2 : (if f.projection ≠ 0 then 4 * (f.reconstructedLen * f.reconstructedLen) else 0) = f.projectionBytes := rfl
      have e3 : 4 * (f.quantizedLen * (f.nCentroids * (f.reconstructedLen / f.quantizedLen))) = f.quantizerBytes := rfl
      have e4 : pos + 40 + 4 = pos + 44 := rfl
      rw [e1, e2, e3, e4, hcont, hnew, v1, v2]
      unfold QuantizedHeadPanics QuantizedHeadOk QuantizedFields.Valid
      grind
    · rw [if_pos hm]
      have : (fail Err.format >>= fun x : PqRead => readQuantizedNorms x.readNorms x.nEmbeddings >>=
          fun x_1 => pure (x, x_1) >>= g) d (pos + 40) = .err .format := rfl
      rw [this]
      constructor
      · rintro (h | h)
        · exact absurd hq h
        · cases h
      · rintro (h | h)
        · rcases h with h | h
          · exact absurd h hq
          · exact absurd h.1.1 hm
        · exact absurd h.1.2.1.1 hm
  constructor
  · intro h
    have : ∃ f, QuantizedHeadAt d pos f := by
      have h' := h
      unfold readQuantizedHead readPq at h'
      simp only [bind_assoc] at h'
      rw [ensureChunkType_panic (by decide), readU64_panic] at h'
      obtain ⟨k1, l, k2, h'⟩ := h'
      rw [readU32_panic] at h'; obtain ⟨a, k3, h'⟩ := h'
      rw [readU32_panic] at h'; obtain ⟨b, k4, h'⟩ := h'
      rw [readU32_panic] at h'; obtain ⟨c, k5, h'⟩ := h'
      rw [readU32_panic] at h'; obtain ⟨e, k6, h'⟩ := h'
      rw [readU32_panic] at h'; obtain ⟨m, k7, h'⟩ := h'
      rw [readU64_panic] at h'; obtain ⟨n, k8, h'⟩ := h'
      exact ⟨⟨a, b, c, e, m, n⟩, k1, ⟨l, k2⟩, k3, k4, k5, k6, k7, k8⟩
    obtain ⟨f, hf⟩ := this
    exact ⟨f, hf, (main f hf).mp h⟩
  · rintro ⟨f, hf, h⟩
    exact (main f hf).mpr h

/-- C56, quantized arrays: exactly when reading panics. -/
theorem c56_quantized (d : Bytes) (pos : Nat) :
    readQuantizedArray d pos = .panic ↔ ∃ f, QuantizedHeadAt d pos f ∧
      (QuantizedHeadPanics d pos f ∨ QuantizedHeadOk d pos f ∧ TooBig 1 [f.nEmbeddings, f.quantizedLen]) := by
  unfold readQuantizedArray
  refine readQuantizedHead_panic fun f r ns h1 h2 => ?_
  show (allocArray 1 [r.nEmbeddings, r.quantizer.quantizedLen] >>= _) d _ = _ ↔ _
  rw [allocArray_panic, readExact_panic, h1, h2]
  constructor
  · rintro (h | ⟨_, h⟩)
    · exact h
    · exact (pure_panic.mp h).elim
  · exact .inl

theorem mapRegion_noPanic (n : Nat) : NoPanic (mapRegion n) := by
  intro d pos
  unfold mapRegion; split <;> simp

/-- C56, mapped quantized arrays: exactly when mapping panics. -/
theorem c56_mmap_quantized (d : Bytes) (pos : Nat) :
    mmapQuantizedArray d pos = .panic ↔ ∃ f, QuantizedHeadAt d pos f ∧
      (QuantizedHeadPanics d pos f ∨ QuantizedHeadOk d pos f ∧ usizeMax < f.nEmbeddings * f.quantizedLen) := by
  unfold mmapQuantizedArray
  refine readQuantizedHead_panic fun f r ns h1 h2 => ?_
  show (lift (Res.assert (decide (r.nEmbeddings * r.quantizer.quantizedLen ≤ usizeMax))) >>= _) d _ = _ ↔ _
  rw [assert_panic, (mapRegion_noPanic _).bind_panic, h1, h2]
  constructor
  · rintro (h | ⟨_, _, _, h⟩)
    · exact Nat.not_le.mp h
    · exact (pure_panic.mp h).elim
  · intro h; exact .inl (Nat.not_le.mpr h)

/-! ## Vocabularies -/

theorem SimpleVocab.new_eq_panic {ws : List Str} : SimpleVocab.new ws = .panic ↔ ¬ ws.Nodup := by
  unfold SimpleVocab.new
  simp only [createIndices]
  by_cases h : ws.Nodup
  · have := (indexMap_len_iff ws).mpr h
    simp [Res.assert, this, h]
  · have : ¬ ws.length = (indexMap ws).len := fun e => h ((indexMap_len_iff ws).mp e.symm)
    simp [Res.assert, this, h]

theorem SubwordVocab.new_eq_panic {I : Type} [Indexer I] {ws : List Str} {m M : Nat} {ix : I} {bow eow : Str} :
    SubwordVocab.newWithBoundaries ws m M ix bow eow = .panic ↔ ¬ ws.Nodup ∨ Indexer.upperBound ix = .panic ∨
      ∃ ub, Indexer.upperBound ix = .ok ub ∧ usizeMax < ws.length + ub := by
  unfold SubwordVocab.newWithBoundaries
  simp only [createIndices]
  by_cases h : ws.Nodup
  · have hl := (indexMap_len_iff ws).mpr h
    cases hu : Indexer.upperBound ix with
    | ok ub =>
      by_cases hs : ws.length + ub ≤ usizeMax
      · simp [Res.assert, hl, h, hs]
      · simp only [Res.assert, hl, decide_true, if_true, Res.ok_bind, hs, decide_false, h]
        simp; omega
    | err e => simp [Res.assert, hl, h]
    | panic => simp [Res.assert, hl, h]
  · have : ¬ ws.length = (indexMap ws).len := fun e => h ((indexMap_len_iff ws).mp e.symm)
    simp [Res.assert, this, h]

/-- C56, simple vocabularies: panics exactly for a number of words that exceeds the address space, or if all words
can be read and a word occurs twice. -/
theorem c56_simple (d : Bytes) (pos : Nat) :
    SimpleVocab.read d pos = .panic ↔
      u32At d pos = some ChunkId.simpleVocab.code ∧ (∃ l, u64At d (pos + 4) = some l) ∧
      ∃ n, u64At d (pos + 12) = some n ∧ (isizeMax < 24 * n ∨
        ∃ ws q, ws.length = n ∧ StringsAt d (pos + 20) ws q ∧ ¬ ws.Nodup) := by
  unfold SimpleVocab.read
  rw [ensureChunkType_panic (by decide), readU64_panic]
  simp only [readU64_panic, readVocabItems_panic, lift_panic', SimpleVocab.new_eq_panic, Nat.add_assoc, Nat.reduceAdd]
  grind

/-- Specification: a chunk of a vocabulary with buckets starts at the position; number of words, n-gram lengths, and
number of buckets or exponent. -/
def BucketedHeadAt (id : ChunkId) (d : Bytes) (pos n minN maxN buckets : Nat) : Prop :=
  u32At d pos = some id.code ∧ (∃ l, u64At d (pos + 4) = some l) ∧ u64At d (pos + 12) = some n ∧
    u32At d (pos + 20) = some minN ∧ u32At d (pos + 24) = some maxN ∧ u32At d (pos + 28) = some buckets

theorem readBucketed_panic {I : Type} [BucketIndexer I] (id : ChunkId) (hid : id ≠ .header) (bad : Nat → Prop)
    (hbad : ∀ (n : Nat) (ws : List Str) m M, isizeMax < 24 * ws.length ∨
      (((BucketIndexer.newBuckets n : Res I) = .panic ∨ ∃ ix : I, BucketIndexer.newBuckets n = .ok ix ∧
        SubwordVocab.new ws m M ix = .panic) ↔ ¬ ws.Nodup ∨ bad n)) (d : Bytes) (pos : Nat) :
    (readBucketed id : Rd (SubwordVocab I)) d pos = .panic ↔
      ∃ n minN maxN buckets, BucketedHeadAt id d pos n minN maxN buckets ∧ (isizeMax < 24 * n ∨
        ∃ ws q, ws.length = n ∧ StringsAt d (pos + 32) ws q ∧ (¬ ws.Nodup ∨ bad buckets)) := by
  unfold readBucketed BucketedHeadAt
  rw [ensureChunkType_panic hid, readU64_panic]
  simp only [readU64_panic, readU32_panic, readVocabItems_panic, lift_panic, lift_panic', Nat.add_assoc, Nat.reduceAdd]
  constructor
  · rintro ⟨k1, l, k2, n, k3, m, k4, M, k5, b, k6, h⟩
    refine ⟨n, m, M, b, ⟨k1, ⟨l, k2⟩, k3, k4, k5, k6⟩, ?_⟩
    rcases h with h | ⟨ws, q, hl, hs, h⟩
    · exact .inl h
    · rcases hbad b ws m M with h' | h'
      · exact .inl (by rw [← hl]; exact h')
      · exact .inr ⟨ws, q, hl, hs, h'.mp h⟩
  · rintro ⟨n, m, M, b, ⟨k1, ⟨l, k2⟩, k3, k4, k5, k6⟩, h⟩
    refine ⟨k1, l, k2, n, k3, m, k4, M, k5, b, k6, ?_⟩
    rcases h with h | ⟨ws, q, hl, hs, h⟩
    · exact .inl h
    · rcases hbad b ws m M with h' | h'
      · exact .inl (by rw [← hl]; exact h')
      · exact .inr ⟨ws, q, hl, hs, h'.mpr h⟩

/-- C56, vocabularies with hashed buckets: also an exponent of 64 or more panics (64 with overflow checks). -/
theorem c56_bucket (d : Bytes) (pos : Nat) :
    (readChunk : Rd BucketSubwordVocab) d pos = .panic ↔
      ∃ n minN maxN exponent, BucketedHeadAt .bucketSubwordVocab d pos n minN maxN exponent ∧ (isizeMax < 24 * n ∨
        ∃ ws q, ws.length = n ∧ StringsAt d (pos + 32) ws q ∧ (¬ ws.Nodup ∨ 64 ≤ exponent)) := by
  refine readBucketed_panic .bucketSubwordVocab (by decide) (fun n => 64 ≤ n) ?_ d pos
  intro n ws m M
  by_cases hw : isizeMax < 24 * ws.length
  · exact .inl hw
  right
  show (HashIndexer.new n = .panic ∨ ∃ ix, HashIndexer.new n = .ok ix ∧
    SubwordVocab.newWithBoundaries ws m M ix _ _ = .panic) ↔ _
  unfold HashIndexer.new
  by_cases hn : n ≤ 64
  · simp only [hn, decide_true, Res.assert, if_true, Res.ok_bind]
    constructor
    · rintro (h | ⟨ix, h, h'⟩)
      · cases h
      · have hexp : ix.bucketsExp = n := by cases h; rfl
        rcases SubwordVocab.new_eq_panic.mp h' with h' | h' | ⟨ub, h', hub⟩
        · exact .inl h'
        · right
          have h' : HashIndexer.upperBound ix = .panic := h'
          unfold HashIndexer.upperBound at h'
          rw [hexp] at h'
          split at h'
          · cases h'
          · rename_i h2
            by_cases h3 : n < 64
            · exact absurd (Nat.le_sub_one_of_lt (Nat.pow_lt_pow_right (a := 2) (by decide) h3)) h2
            · omega
        · have h' : HashIndexer.upperBound ix = .ok ub := h'
          unfold HashIndexer.upperBound at h'
          rw [hexp] at h'
          split at h'
          · rename_i h2
            by_cases h3 : n < 64
            · have : ub = 2 ^ n := by cases h'; rfl
              have h4 : 2 ^ n ≤ 2 ^ 63 := Nat.pow_le_pow_right (n := 2) (by decide) (by omega)
              unfold usizeMax at hub; unfold isizeMax at hw
              omega
            · exact .inr (by omega)
          · cases h'
    · intro h
      refine .inr ⟨_, rfl, ?_⟩
      rw [SubwordVocab.new_eq_panic]
      rcases h with h | h
      · exact .inl h
      · right; left
        have : n = 64 := by omega
        subst this
        rfl
  · have : 64 ≤ n := by omega
    simp [hn, Res.assert, this]

/-- C56, vocabularies with fastText buckets: also a number of buckets of `2 ^ 31` or more panics. -/
theorem c56_fasttext (d : Bytes) (pos : Nat) :
    (readChunk : Rd FastTextSubwordVocab) d pos = .panic ↔
      ∃ n minN maxN buckets, BucketedHeadAt .fastTextSubwordVocab d pos n minN maxN buckets ∧ (isizeMax < 24 * n ∨
        ∃ ws q, ws.length = n ∧ StringsAt d (pos + 32) ws q ∧ (¬ ws.Nodup ∨ 2 ^ 31 ≤ buckets)) := by
  refine readBucketed_panic .fastTextSubwordVocab (by decide) (fun n => 2 ^ 31 ≤ n) ?_ d pos
  intro n ws m M
  by_cases hw : isizeMax < 24 * ws.length
  · exact .inl hw
  right
  show (FastTextIndexer.new n = .panic ∨ ∃ ix, FastTextIndexer.new n = .ok ix ∧
    SubwordVocab.newWithBoundaries ws m M ix _ _ = .panic) ↔ _
  by_cases hn : n ≤ 2 ^ 31 - 1
  · have hnew : FastTextIndexer.new n = .ok ⟨UInt32.ofNat n⟩ := FastTextIndexer.new_eq_ok.mpr ⟨hn, rfl⟩
    rw [hnew]
    constructor
    · rintro (h | ⟨ix, h, h'⟩)
      · cases h
      · cases h
        rcases SubwordVocab.new_eq_panic.mp h' with h' | h' | ⟨ub, h', hub⟩
        · exact .inl h'
        · cases h'
        · have : ub = (UInt32.ofNat n).toNat := by cases h'; rfl
          have h2 := (UInt32.ofNat n).toNat_lt
          unfold usizeMax at hub; unfold isizeMax at hw
          omega
    · rintro (h | h)
      · exact .inr ⟨_, rfl, SubwordVocab.new_eq_panic.mpr (.inl h)⟩
      · omega
  · have h2 : 2 ^ 31 ≤ n := by omega
    have : FastTextIndexer.new n = .panic := by unfold FastTextIndexer.new; simp [Res.assert, hn]
    simp [this, h2]

/-- Specification: a chunk of an explicit vocabulary starts at the position. -/
def ExplicitHeadAt (d : Bytes) (pos n k minN maxN : Nat) : Prop :=
  u32At d pos = some ChunkId.explicitSubwordVocab.code ∧ (∃ l, u64At d (pos + 4) = some l) ∧
    u64At d (pos + 12) = some n ∧ u64At d (pos + 20) = some k ∧
    u32At d (pos + 28) = some minN ∧ u32At d (pos + 32) = some maxN

theorem o2nFrom_len (l : List Nat) (m : HMap Nat Nat) : (o2nFrom m l).len ≤ m.len + l.length := by
  induction l generalizing m with
  | nil => simp [o2nFrom]
  | cons i l ih =>
    have h := ih (o2nStep m i)
    have h2 : (o2nStep m i).len ≤ m.len + 1 := by
      unfold o2nStep
      split
      · omega
      · rw [HMap.len_insert]; split <;> omega
    show (o2nFrom (o2nStep m i) l).len ≤ _
    simp only [List.length_cons]
    omega

/-- C56, vocabularies with explicit n-grams: panics exactly if the number of words or of n-grams exceeds the address
space, or if a word or an n-gram occurs twice. -/
theorem c56_explicit (d : Bytes) (pos : Nat) :
    readExplicit d pos = .panic ↔
      ∃ n k minN maxN, ExplicitHeadAt d pos n k minN maxN ∧ (isizeMax < 24 * n ∨
        ∃ ws q, ws.length = n ∧ StringsAt d (pos + 36) ws q ∧ (isizeMax < 32 * k ∨
          ∃ gs q', gs.length = k ∧ NumberedStringsAt d q gs q' ∧ (¬ ws.Nodup ∨ ¬ (gs.map (·.1)).Nodup))) := by
  unfold readExplicit ExplicitHeadAt
  rw [ensureChunkType_panic (by decide), readU64_panic]
  simp only [readU64_panic, readU32_panic, readVocabItems_panic, readNgrams_panic, lift_panic, lift_panic',
    Nat.add_assoc, Nat.reduceAdd]
  have key : ∀ (ws : List Str) (gs : List (Str × Nat)) m M, ¬ isizeMax < 24 * ws.length → ¬ isizeMax < 32 * gs.length →
      ((ExplicitIndexer.newWithIndices gs = .panic ∨ ∃ r, ExplicitIndexer.newWithIndices gs = .ok r ∧
        SubwordVocab.new ws m M r.1 = .panic) ↔ (¬ ws.Nodup ∨ ¬ (gs.map (·.1)).Nodup)) := by
    intro ws gs m M h1 h2
    rw [newWithIndices_eq]
    by_cases hg : (gs.map (·.1)).Nodup
    · rw [if_pos hg]
      constructor
      · rintro (h | ⟨r, h, h'⟩)
        · cases h
        · cases h
          rcases SubwordVocab.new_eq_panic.mp h' with h' | h' | ⟨ub, h', hub⟩
          · exact .inl h'
          · cases h'
          · have hlen := o2nFrom_len (gs.map (·.2)) HMap.empty
            have : ub = (o2nFrom HMap.empty (gs.map (·.2))).len := by cases h'; rfl
            have h0 : (HMap.empty : HMap Nat Nat).len = 0 := rfl
            rw [h0] at hlen
            simp only [List.length_map] at hlen
            unfold usizeMax at hub; unfold isizeMax at h1 h2
            omega
      · rintro (h | h)
        · exact .inr ⟨_, rfl, SubwordVocab.new_eq_panic.mpr (.inl h)⟩
        · exact absurd hg h
    · rw [if_neg hg]; simp [hg]
  constructor
  · rintro ⟨k1, l, k2, n, k3, k, k4, m, k5, M, k6, h⟩
    refine ⟨n, k, m, M, ⟨k1, ⟨l, k2⟩, k3, k4, k5, k6⟩, ?_⟩
    by_cases hn : isizeMax < 24 * n
    · exact .inl hn
    rcases h with h | ⟨ws, q, hl, hs, h⟩
    · exact .inl h
    · refine .inr ⟨ws, q, hl, hs, ?_⟩
      by_cases hk : isizeMax < 32 * k
      · exact .inl hk
      rcases h with h | ⟨gs, q', hgl, hgs, h⟩
      · exact .inl h
      · exact .inr ⟨gs, q', hgl, hgs, (key ws gs m M (by rw [hl]; exact hn) (by rw [hgl]; exact hk)).mp h⟩
  · rintro ⟨n, k, m, M, ⟨k1, ⟨l, k2⟩, k3, k4, k5, k6⟩, h⟩
    refine ⟨k1, l, k2, n, k3, k, k4, m, k5, M, k6, ?_⟩
    by_cases hn : isizeMax < 24 * n
    · exact .inl hn
    rcases h with h | ⟨ws, q, hl, hs, h⟩
    · exact .inl h
    · refine .inr ⟨ws, q, hl, hs, ?_⟩
      by_cases hk : isizeMax < 32 * k
      · exact .inl hk
      rcases h with h | ⟨gs, q', hgl, hgs, h⟩
      · exact .inl h
      · exact .inr ⟨gs, q', hgl, hgs, (key ws gs m M (by rw [hl]; exact hn) (by rw [hgl]; exact hk)).mpr h⟩

/-- C56, floret vocabularies: panics exactly if the chunk is complete, has a valid number of hashes, and zero
buckets. -/
theorem c56_floret (d : Bytes) (pos : Nat) :
    readFloret d pos = .panic ↔
      u32At d pos = some ChunkId.floretSubwordVocab.code ∧ (∃ l, u64At d (pos + 4) = some l) ∧
      (∃ m, u32At d (pos + 12) = some m) ∧ (∃ m, u32At d (pos + 16) = some m) ∧ u64At d (pos + 20) = some 0 ∧
      (∃ h, u32At d (pos + 28) = some h ∧ 1 ≤ h ∧ h ≤ 4) ∧ (∃ s, u32At d (pos + 32) = some s) ∧
      ∃ bow eow q, StringsAt d (pos + 36) [bow, eow] q := by
  unfold readFloret
  rw [ensureChunkType_panic (by decide), readU64_panic]
  simp only [readU64_panic, readU32_panic, if_fail_panic, Nat.add_assoc, Nat.reduceAdd, readString_noPanic.bind_panic,
    readString_ok_iff, lift_panic, lift_panic']
  have key : ∀ (n h : Nat) (seed : UInt32) (bow eow : Str) (m M : Nat), n < 2 ^ 64 → 1 ≤ h ∧ h ≤ 4 →
      ((FloretIndexer.new n h seed = .panic ∨ ∃ ix, FloretIndexer.new n h seed = .ok ix ∧
        SubwordVocab.newWithBoundaries [] m M ix bow eow = .panic) ↔ n = 0) := by
    intro n h seed bow eow m M hn hh
    by_cases h0 : n = 0
    · have : FloretIndexer.new n h seed = .panic := by
        unfold FloretIndexer.new
        have : 0 < h := hh.1
        simp [Res.assert, h0, this, hh.2]
      rw [this]; simp [h0]
    · have hnew : FloretIndexer.new n h seed = .ok ⟨n, seed, h⟩ := by
        unfold FloretIndexer.new
        have : 0 < h := hh.1
        simp [Res.assert, h0, this, hh.2]
      rw [hnew]
      constructor
      · rintro (h' | ⟨ix, h', h''⟩)
        · cases h'
        · cases h'
          rcases SubwordVocab.new_eq_panic.mp h'' with h' | h' | ⟨ub, h', hub⟩
          · exact absurd List.nodup_nil h'
          · cases h'
          · have : ub = n := by cases h'; rfl
            subst this
            unfold usizeMax at hub
            simp at hub; omega
      · intro h'; exact absurd h' h0
  constructor
  · rintro ⟨k1, l, k2, m, k3, M, k4, n, k5, h, k6, hh, s, k7, bow, q, ⟨k8, k9, rfl⟩, eow, q', ⟨k10, k11, rfl⟩, hp⟩
    have hh := Classical.not_not.mp hh
    have hn := (key n h _ bow eow m M (u64At_lt k5) hh).mp hp
    subst hn
    refine ⟨k1, ⟨l, k2⟩, ⟨m, k3⟩, ⟨M, k4⟩, k5, ⟨h, k6, hh⟩, ⟨s, k7⟩, bow, eow, _, k8, k9, ?_, ?_, rfl⟩
    · rw [show pos + 36 + 4 + (utf8 bow).length = pos + (40 + (utf8 bow).length) by omega]; exact k10
    · rw [show pos + 36 + 4 + (utf8 bow).length + 4 = pos + (40 + (utf8 bow).length) + 4 by omega]; exact k11
  · rintro ⟨k1, ⟨l, k2⟩, ⟨m, k3⟩, ⟨M, k4⟩, k5, ⟨h, k6, hh⟩, ⟨s, k7⟩, bow, eow, q, k8, k9, k10, k11, _⟩
    refine ⟨k1, l, k2, m, k3, M, k4, 0, k5, h, k6, by simp [hh], s, k7, bow, _, ⟨k8, k9, rfl⟩, eow, _,
      ⟨?_, ?_, rfl⟩, (key 0 h _ bow eow m M (by decide) hh).mpr rfl⟩
    · rw [show pos + 36 + 4 + (utf8 bow).length = pos + (40 + (utf8 bow).length) by omega] at k10; exact k10
    · rw [show pos + 36 + 4 + (utf8 bow).length + 4 = pos + (40 + (utf8 bow).length) + 4 by omega] at k11; exact k11

/-! ## Run-time wrappers and whole embeddings -/

theorem peekChunkId_panic {β : Type} {d : Bytes} {pos : Nat} {f : ChunkId → Rd β} :
    (peekChunkId >>= f) d pos = .panic ↔ ∃ id, u32At d pos = some id.code ∧ id ≠ .header ∧ f id d pos = .panic := by
  have : peekChunkId d pos = (readChunkId d pos).map fun r => (r.1, pos) := rfl
  rw [bind_apply, this, readChunkId_eq]
  cases hu : u32At d pos with
  | none => simp [Res.map]
  | some c =>
    cases hc : ChunkId.ofCode c with
    | none =>
      simp only [hc, Res.map]
      constructor
      · intro h; cases h
      · rintro ⟨id, h, hid, _⟩
        cases h
        rw [ChunkId.ofCode_code hid] at hc; cases hc
    | some i =>
      have e := ofCode_eq_some hc
      simp only [hc, Res.map, Res.ok_bind]
      constructor
      · intro h
        refine ⟨i, by rw [e], ?_, h⟩
        rintro rfl; subst e; simp [ChunkId.ofCode, ChunkId.code] at hc
      · rintro ⟨id, h, hid, h'⟩
        cases h
        rw [ChunkId.ofCode_code hid] at hc
        cases hc
        exact h'

theorem map_panic {α β : Type} {p : Rd α} {g : α → β} {d : Bytes} {pos : Nat} :
    (p >>= fun a => pure (g a)) d pos = .panic ↔ p d pos = .panic := by
  rw [Rd.bind_panic]
  constructor
  · rintro (h | ⟨_, _, _, h⟩)
    · exact h
    · exact (pure_panic.mp h).elim
  · exact .inl

/-- C56, any vocabulary: reading panics exactly if one of the five kinds of chunks panics (each of them checks the
identifier at the position). -/
theorem c56_vocab (d : Bytes) (pos : Nat) :
    readVocabWrap d pos = .panic ↔ SimpleVocab.read d pos = .panic ∨ readExplicit d pos = .panic ∨
      (readChunk : Rd FastTextSubwordVocab) d pos = .panic ∨ readFloret d pos = .panic ∨
      (readChunk : Rd BucketSubwordVocab) d pos = .panic := by
  have m1 : SimpleVocab.read d pos = .panic → u32At d pos = some ChunkId.simpleVocab.code :=
    fun h => ((c56_simple d pos).mp h).1
  have m2 : readExplicit d pos = .panic → u32At d pos = some ChunkId.explicitSubwordVocab.code := by
    intro h; obtain ⟨_, _, _, _, h, _⟩ := (c56_explicit d pos).mp h; exact h.1
  have m3 : (readChunk : Rd FastTextSubwordVocab) d pos = .panic →
      u32At d pos = some ChunkId.fastTextSubwordVocab.code := by
    intro h; obtain ⟨_, _, _, _, h, _⟩ := (c56_fasttext d pos).mp h; exact h.1
  have m4 : readFloret d pos = .panic → u32At d pos = some ChunkId.floretSubwordVocab.code :=
    fun h => ((c56_floret d pos).mp h).1
  have m5 : (readChunk : Rd BucketSubwordVocab) d pos = .panic →
      u32At d pos = some ChunkId.bucketSubwordVocab.code := by
    intro h; obtain ⟨_, _, _, _, h, _⟩ := (c56_bucket d pos).mp h; exact h.1
  unfold readVocabWrap
  rw [peekChunkId_panic]
  constructor
  · rintro ⟨id, hid, hne, h⟩
    cases id <;> first
      | exact absurd rfl hne
      | (simp only [fail_apply] at h; cases h)
      | (rw [map_panic] at h
         first
         | exact .inl h
         | exact .inr (.inl h)
         | exact .inr (.inr (.inl h))
         | exact .inr (.inr (.inr (.inl h)))
         | exact .inr (.inr (.inr (.inr h))))
  · rintro (h | h | h | h | h)
    · exact ⟨.simpleVocab, m1 h, by decide, map_panic.mpr h⟩
    · exact ⟨.explicitSubwordVocab, m2 h, by decide, map_panic.mpr h⟩
    · exact ⟨.fastTextSubwordVocab, m3 h, by decide, map_panic.mpr h⟩
    · exact ⟨.floretSubwordVocab, m4 h, by decide, map_panic.mpr h⟩
    · exact ⟨.bucketSubwordVocab, m5 h, by decide, map_panic.mpr h⟩

/-- C56, any storage: reading panics exactly if one of the two kinds of chunks panics; mapping likewise. -/
theorem c56_storage (d : Bytes) (pos : Nat) :
    (readStorageWrap d pos = .panic ↔ readNdArray d pos = .panic ∨ readQuantizedArray d pos = .panic) ∧
    (mmapStorageWrap d pos = .panic ↔ mmapNdArray d pos = .panic ∨ mmapQuantizedArray d pos = .panic) ∧
    (readStorageViewWrap d pos = .panic ↔ readNdArray d pos = .panic) ∧
    (mmapStorageViewWrap d pos = .panic ↔ mmapNdArray d pos = .panic) := by
  have m1 : readNdArray d pos = .panic → u32At d pos = some ChunkId.ndArray.code := by
    intro h; obtain ⟨_, _, h, _⟩ := (c56_array d pos).mp h; exact h.1
  have m2 : mmapNdArray d pos = .panic → u32At d pos = some ChunkId.ndArray.code := by
    intro h; obtain ⟨_, _, h, _⟩ := (c56_mmap_array d pos).mp h; exact h.1
  have m3 : readQuantizedArray d pos = .panic → u32At d pos = some ChunkId.quantizedArray.code := by
    intro h; obtain ⟨_, h, _⟩ := (c56_quantized d pos).mp h; exact h.1
  have m4 : mmapQuantizedArray d pos = .panic → u32At d pos = some ChunkId.quantizedArray.code := by
    intro h; obtain ⟨_, h, _⟩ := (c56_mmap_quantized d pos).mp h; exact h.1
  unfold readStorageWrap mmapStorageWrap readStorageViewWrap mmapStorageViewWrap
  rw [peekChunkId_panic, peekChunkId_panic, peekChunkId_panic, peekChunkId_panic]
  refine ⟨⟨?_, ?_⟩, ⟨?_, ?_⟩, ⟨?_, ?_⟩, ⟨?_, ?_⟩⟩
  · rintro ⟨id, hid, hne, h⟩
    cases id <;> first
      | exact absurd rfl hne
      | (simp only [fail_apply] at h; cases h)
      | (rw [map_panic] at h
         first
         | exact .inl h
         | exact .inr h)
  · rintro (h | h)
    · exact ⟨.ndArray, m1 h, by decide, map_panic.mpr h⟩
    · exact ⟨.quantizedArray, m3 h, by decide, map_panic.mpr h⟩
  · rintro ⟨id, hid, hne, h⟩
    cases id <;> first
      | exact absurd rfl hne
      | (simp only [fail_apply] at h; cases h)
      | (rw [map_panic] at h
         first
         | exact .inl h
         | exact .inr h)
  · rintro (h | h)
    · exact ⟨.ndArray, m2 h, by decide, map_panic.mpr h⟩
    · exact ⟨.quantizedArray, m4 h, by decide, map_panic.mpr h⟩
  · rintro ⟨id, hid, hne, h⟩
    cases id <;> first
      | exact absurd rfl hne
      | (simp only [fail_apply] at h; cases h)
      | (rw [map_panic] at h; exact h)
  · intro h; exact ⟨.ndArray, m1 h, by decide, map_panic.mpr h⟩
  · rintro ⟨id, hid, hne, h⟩
    cases id <;> first
      | exact absurd rfl hne
      | (simp only [fail_apply] at h; cases h)
      | (rw [map_panic] at h; exact h)
  · intro h; exact ⟨.ndArray, m2 h, by decide, map_panic.mpr h⟩

/-- Specification: a file that makes the reader of metadata (behind the header) panic. -/
def MetadataPanics {T : Type} [Toml T] (d : Bytes) (pos : Nat) : Prop :=
  ∃ ids p, Header.read d pos = .ok (⟨.metadata :: ids⟩, p) ∧ (readMetadata : Rd (Metadata T)) d p = .panic

theorem readOptMetadata_panic {T : Type} [Toml T] (d : Bytes) (pos : Nat) :
    (readOptMetadata : Rd (Option (Metadata T))) d pos = .panic ↔ MetadataPanics (T := T) d pos := by
  unfold readOptMetadata MetadataPanics
  rw [NoPanic.bind_panic c56_header]
  constructor
  · rintro ⟨⟨ids⟩, p, h, h'⟩
    cases ids with
    | nil => cases h'
    | cons i ids =>
      simp only at h'
      split at h'
      · rename_i hi
        subst hi
        exact ⟨ids, p, h, map_panic.mp h'⟩
      · exact (pure_panic.mp h').elim
  · rintro ⟨ids, p, h, h'⟩
    exact ⟨_, p, h, map_panic.mpr h'⟩

/-- C56 for whole files, as far as it holds: reading (with `s` the reader of storages) panics exactly if the reader of
a chunk panics at the place where the chunk is expected. With the theorems above this says for which bytes a panic
occurs. Missing: that there is no panic at all, which is wrong (`c56_false`). -/
theorem c56_partial {T V S : Type} [Toml T] [ReadChunk V] (s : Rd S) (d : Bytes) (pos : Nat) :
    (Embeddings.readWith s d pos : Res (Embeddings T V S F32)) = .panic ↔
      MetadataPanics (T := T) d pos ∨
      ∃ (m : Option (Metadata T)) (p : Nat), (readOptMetadata : Rd _) d pos = .ok (m, p) ∧
        ((readChunk : Rd V) d p = .panic ∨ ∃ v q, (readChunk : Rd V) d p = .ok (v, q) ∧
          (s d q = .panic ∨ ∃ st r, s d q = .ok (st, r) ∧ readNorms d r = .panic)) := by
  unfold Embeddings.readWith Embeddings.readHead
  rw [bind_eq_panic, Rd.bind_panic, readOptMetadata_panic, or_assoc]
  refine or_congr_right ?_
  have hn : ∀ r, (∃ x, Embeddings.orNone ((readChunk : Rd (NdNorms F32)) d r) = x ∧ x = .panic) ↔
      readNorms d r = .panic := by
    intro r
    show (∃ x, Embeddings.orNone (readNorms d r) = x ∧ x = .panic) ↔ _
    cases readNorms d r <;> simp [Embeddings.orNone]
  constructor
  · rintro (⟨m, p, h, h'⟩ | ⟨⟨⟨m, v⟩, q⟩, h, h'⟩)
    · exact ⟨m, p, h, .inl (map_panic.mp h')⟩
    · obtain ⟨m', p, h1, h2⟩ := Rd.bind_ok.mp h
      obtain ⟨v', q', h3, h4⟩ := Rd.bind_ok.mp h2
      cases h4
      refine ⟨m, p, h1, .inr ⟨v, q, h3, ?_⟩⟩
      simp only at h'
      rcases bind_eq_panic.mp h' with h' | ⟨⟨st, r⟩, h5, h'⟩
      · exact .inl h'
      · refine .inr ⟨st, r, h5, ?_⟩
        rcases bind_eq_panic.mp h' with h' | ⟨_, _, h'⟩
        · exact (hn r).mp ⟨_, rfl, h'⟩
        · cases h'
  · rintro ⟨m, p, h1, h' | ⟨v, q, h3, h'⟩⟩
    · exact .inl ⟨m, p, h1, map_panic.mpr h'⟩
    · refine .inr ⟨((m, v), q), ?_, ?_⟩
      · rw [Rd.bind_ok]
        refine ⟨m, p, h1, ?_⟩
        rw [Rd.bind_ok]
        exact ⟨v, q, h3, rfl⟩
      · simp only
        rw [bind_eq_panic]
        rcases h' with h' | ⟨st, r, h5, h'⟩
        · exact .inl h'
        · refine .inr ⟨(st, r), h5, ?_⟩
          rw [bind_eq_panic]
          obtain ⟨_, rfl, h⟩ := (hn r).mpr h'
          exact .inl h

/-! ## Files that make the readers panic -/

/-- Whether a result is a panic. -/
def isPanic {α : Type} : Res α → Bool
  | .panic => true
  | _ => false

theorem of_isPanic {α : Type} {r : Res α} (h : isPanic r = true) : r = .panic := by
  cases r <;> simp_all [isPanic]

/-- Whether a result is an I/O error. -/
def isIoErr {α : Type} : Res α → Bool
  | .err .io => true
  | _ => false

theorem of_isIoErr {α : Type} {r : Res α} (h : isIoErr r = true) : r = .err .io := by
  unfold isIoErr at h
  split at h <;> simp_all

/-- The word `a`, as written. -/
def wordA : Bytes := leBytes 4 1 ++ [97]

/-- A file with two chunks; the vocabulary contains a word twice. -/
def duplicateWordFile : Bytes :=
  magic ++ leBytes 4 0 ++ leBytes 4 2 ++ leBytes 4 1 ++ leBytes 4 2 ++
    (leBytes 4 1 ++ leBytes 8 18 ++ leBytes 8 2 ++ wordA ++ wordA)

/-- C56 is false as stated: a file whose vocabulary contains a word twice makes `read_embeddings` and
`mmap_embeddings` panic. -/
theorem c56_false : ¬ ∀ (T : Type) [Toml T] (d : Bytes),
    (Embeddings.read d 0 : Res (Embeddings T VocabWrap StorageWrap F32)) ≠ .panic ∧
    (Embeddings.mmap mmapStorageWrap d 0 : Res (Embeddings T VocabWrap StorageWrap F32)) ≠ .panic := by
  intro h
  exact (@h Unit ⟨fun _ => [], fun _ => none⟩ duplicateWordFile).1 (of_isPanic (by decide +kernel))

/-- Further data that make the readers of chunks panic: a word that occurs twice, an exponent of 65, `2 ^ 31` fastText
buckets, an n-gram that occurs twice, zero floret buckets. -/
theorem c56_vocab_false :
    SimpleVocab.read (leBytes 4 1 ++ leBytes 8 18 ++ leBytes 8 2 ++ wordA ++ wordA) 0 = .panic ∧
    (readChunk : Rd BucketSubwordVocab) (leBytes 4 3 ++ leBytes 8 25 ++ leBytes 8 1 ++ leBytes 4 3 ++ leBytes 4 6 ++
      leBytes 4 65 ++ wordA) 0 = .panic ∧
    (readChunk : Rd FastTextSubwordVocab) (leBytes 4 7 ++ leBytes 8 25 ++ leBytes 8 1 ++ leBytes 4 3 ++ leBytes 4 6 ++
      leBytes 4 (2 ^ 31) ++ wordA) 0 = .panic ∧
    readExplicit (leBytes 4 8 ++ leBytes 8 55 ++ leBytes 8 1 ++ leBytes 8 2 ++ leBytes 4 3 ++ leBytes 4 6 ++ wordA ++
      (wordA ++ leBytes 8 0) ++ (wordA ++ leBytes 8 1)) 0 = .panic ∧
    readFloret (leBytes 4 9 ++ leBytes 8 38 ++ leBytes 4 3 ++ leBytes 4 6 ++ leBytes 8 0 ++ leBytes 4 2 ++ leBytes 4 7 ++
      wordA ++ wordA) 0 = .panic := by
  refine ⟨?_, ?_, ?_, ?_, ?_⟩ <;> exact of_isPanic (by decide +kernel)

/-- Data that make the readers of storages, norms and metadata panic: a matrix of `2 ^ 62` rows, no sub-quantizers,
no centroids, `2 ^ 62` norms, `2 ^ 63` bytes of metadata; and mapping a matrix of `2 ^ 62` rows of 4 components. -/
theorem c56_storage_false {T : Type} [Toml T] :
    readNdArray (leBytes 4 2 ++ leBytes 8 16 ++ leBytes 8 (2 ^ 62) ++ leBytes 4 4 ++ leBytes 4 10) 0 = .panic ∧
    mmapNdArray (leBytes 4 2 ++ leBytes 8 16 ++ leBytes 8 (2 ^ 62) ++ leBytes 4 4 ++ leBytes 4 10) 0 = .panic ∧
    readQuantizedArray (leBytes 4 4 ++ leBytes 8 28 ++ leBytes 4 0 ++ leBytes 4 0 ++ leBytes 4 0 ++ leBytes 4 10 ++
      leBytes 4 256 ++ leBytes 8 1) 0 = .panic ∧
    readQuantizedArray (leBytes 4 4 ++ leBytes 8 28 ++ leBytes 4 0 ++ leBytes 4 0 ++ leBytes 4 2 ++ leBytes 4 10 ++
      leBytes 4 0 ++ leBytes 8 1 ++ leBytes 4 1 ++ leBytes 4 10 ++ [0, 0, 0, 0]) 0 = .panic ∧
    readNorms (leBytes 4 6 ++ leBytes 8 16 ++ leBytes 8 (2 ^ 62) ++ leBytes 4 10) 0 = .panic ∧
    (readMetadata : Rd (Metadata T)) (leBytes 4 5 ++ leBytes 8 (2 ^ 63)) 0 = .panic := by
  refine ⟨?_, ?_, ?_, ?_, ?_, (c56_metadata _ _).mpr ⟨by decide +kernel, 2 ^ 63, by decide +kernel, Nat.le_refl _⟩⟩ <;>
    exact of_isPanic (by decide +kernel)

/-- The right-hand sides of the characterisations are met by data: a matrix of `2 ^ 62` rows of 4 components, and a
vocabulary with a repeated word; and they fail for data that are merely cut short. -/
example :
    (∃ rows cols, ArrayHeadAt (leBytes 4 2 ++ leBytes 8 16 ++ leBytes 8 (2 ^ 62) ++ leBytes 4 4 ++ leBytes 4 10) 0 rows cols ∧
      TooBig 4 [rows, cols]) ∧
    (u32At duplicateWordFile 20 = some ChunkId.simpleVocab.code ∧
      StringsAt duplicateWordFile 40 [['a'], ['a']] 50 ∧ ¬ [['a'], ['a']].Nodup) ∧
    (SimpleVocab.read (duplicateWordFile.take 49) 20 = .err .io ∧
     readNdArray (leBytes 4 2 ++ leBytes 8 16 ++ leBytes 8 2 ++ leBytes 4 4 ++ leBytes 4 10) 0 = .err .io) := by
  refine ⟨(c56_array _ _).mp (of_isPanic (by decide +kernel)), ⟨by decide +kernel, ?_, by decide⟩, ?_, ?_⟩
  · exact ⟨by decide +kernel, by decide +kernel, by decide +kernel, by decide +kernel, rfl⟩
  · exact of_isIoErr (by decide +kernel)
  · exact of_isIoErr (by decide +kernel)

end FF
