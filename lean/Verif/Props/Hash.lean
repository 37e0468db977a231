import Verif.Props.Subword
import Verif.Lemmas.ResList

/-!
# C66: the hash functions behind bucket indices

Files of other implementations can only be used if n-grams end up in the same buckets. The specification below defines
the hashes with arithmetic on natural numbers.
-/

namespace FF

/-! ## Specification -/

namespace HashSpec

/-- FNV-1a: start with `basis`; for every byte, exclusive or, then multiply, modulo `m`. -/
def fnv (basis prime m : Nat) (l : List Nat) : Nat := l.foldl (fun h b => (h ^^^ b) * prime % m) basis

/-- The bytes of `n` as a `k`-byte little-endian number. -/
def digits (k n : Nat) : List Nat := (List.range k).map fun i => n / 256 ^ i % 256

/-- The 64-bit FNV-1a hash of an n-gram: of its number of characters (8 bytes) and its characters (4 bytes each). -/
def ngramHash (g : Str) : Nat :=
  fnv 14695981039346656037 1099511628211 (2 ^ 64) (digits 8 g.length ++ g.flatMap fun c => digits 4 c.toNat)

/-- The hash of fastText: 32-bit FNV-1a of the UTF-8 bytes, where bytes from 128 are sign-extended. -/
def fasttext (g : Str) : Nat :=
  fnv 2166136261 16777619 (2 ^ 32) ((utf8 g).map fun b => if b.toNat < 128 then b.toNat else b.toNat + 4294967040)

/-- Rotation of a 64-bit number to the left by `r` bits. -/
def rotl (r x : Nat) : Nat := x * 2 ^ r % 2 ^ 64 + x / 2 ^ (64 - r)

/-- A little-endian number. -/
def number : List Nat → Nat
  | [] => 0
  | b :: bs => b + 256 * number bs

/-- Constants of MurmurHash3_x64_128. -/
def c1 : Nat := 0x87c37b91114253d5
/-- Constants of MurmurHash3_x64_128. -/
def c2 : Nat := 0x4cf5ad432745937f

/-- Mixing of the first half of a block. -/
def k1 (l : List Nat) : Nat := rotl 31 (number l * c1 % 2 ^ 64) * c2 % 2 ^ 64
/-- Mixing of the second half of a block. -/
def k2 (l : List Nat) : Nat := rotl 33 (number l * c2 % 2 ^ 64) * c1 % 2 ^ 64

/-- One 16-byte block. -/
def block (h : Nat × Nat) (l : List Nat) : Nat × Nat :=
  let h1 := (rotl 27 (h.1 ^^^ k1 (l.take 8)) + h.2) * 5 + 0x52dce729
  let h2 := (rotl 31 (h.2 ^^^ k2 (l.drop 8)) + h1) * 5 + 0x38495ab5
  (h1 % 2 ^ 64, h2 % 2 ^ 64)

/-- Finalisation. -/
def fmix (k : Nat) : Nat :=
  let k := (k ^^^ k / 2 ^ 33) * 0xff51afd7ed558ccd % 2 ^ 64
  let k := (k ^^^ k / 2 ^ 33) * 0xc4ceb9fe1a85ec53 % 2 ^ 64
  k ^^^ k / 2 ^ 33

/-- MurmurHash3_x64_128 of 16-byte blocks and a tail of fewer than 16 bytes. -/
def murmur (blocks : List (List Nat)) (tail : List Nat) (seed : Nat) : Nat × Nat :=
  let h := blocks.foldl block (seed, seed)
  let n := (16 * blocks.length + tail.length) % 2 ^ 64
  let h1 := h.1 ^^^ k1 (tail.take 8) ^^^ n
  let h2 := h.2 ^^^ k2 (tail.drop 8) ^^^ n
  let h1 := (h1 + h2) % 2 ^ 64
  let h2 := (h2 + h1) % 2 ^ 64
  let f1 := fmix h1
  let f2 := fmix h2
  ((f1 + f2) % 2 ^ 64, (f2 + (f1 + f2)) % 2 ^ 64)

end HashSpec

open HashSpec

/-! ## FNV-1a -/

theorem leBytes_digits (k n : Nat) : (leBytes k n).map UInt8.toNat = digits k n := by
  induction k generalizing n with
  | zero => rfl
  | succ k ih =>
    have h1 : digits (k + 1) n = n % 256 :: digits k (n / 256) := by
      simp only [digits, List.range_succ_eq_map, List.map_cons, List.map_map]
      simp only [Nat.pow_zero, Nat.div_one, List.cons.injEq, true_and]
      apply List.map_congr_left
      intro i _
      simp only [Function.comp]
      rw [Nat.pow_succ', Nat.div_div_eq_div_mul]
    rw [h1, ← ih]
    simp [leBytes]

theorem fnv1a64_toNat (bs : Bytes) :
    (fnv1a64 bs).toNat = fnv 14695981039346656037 1099511628211 (2 ^ 64) (bs.map UInt8.toNat) := by
  unfold fnv1a64 fnv
  have : ∀ (bs : Bytes) (h : UInt64),
      (bs.foldl (fun h b => (h ^^^ b.toUInt64) * 0x100000001b3) h).toNat =
      (bs.map UInt8.toNat).foldl (fun h b => (h ^^^ b) * 1099511628211 % 2 ^ 64) h.toNat := by
    intro bs
    induction bs with
    | nil => intro h; rfl
    | cons b bs ih =>
      intro h
      rw [List.foldl_cons, ih, List.map_cons, List.foldl_cons]
      refine congrArg (fun x => List.foldl _ x _) ?_
      rw [UInt64.toNat_mul, UInt64.toNat_xor, UInt8.toNat_toUInt64]
      rfl
  exact this bs _

theorem fasttextHash_toNat (g : Str) : (fasttextHash g).toNat = HashSpec.fasttext g := by
  unfold fasttextHash HashSpec.fasttext fnv
  have : ∀ (bs : Bytes) (h : UInt32),
      (bs.foldl (fun h b => (h ^^^ (if b.toNat < 128 then b.toUInt32 else b.toUInt32 ||| 0xffffff00)) * 16777619)
        h).toNat =
      (bs.map fun b => if b.toNat < 128 then b.toNat else b.toNat + 4294967040).foldl
        (fun h b => (h ^^^ b) * 16777619 % 2 ^ 32) h.toNat := by
    intro bs
    induction bs with
    | nil => intro h; rfl
    | cons b bs ih =>
      intro h
      rw [List.foldl_cons, ih, List.map_cons, List.foldl_cons]
      refine congrArg (fun x => List.foldl _ x _) ?_
      have hext : (if b.toNat < 128 then b.toUInt32 else b.toUInt32 ||| 0xffffff00).toNat =
          if b.toNat < 128 then b.toNat else b.toNat + 4294967040 := by
        split
        · simp
        · have hb : b.toNat < 2 ^ 8 := b.toNat_lt
          have := Nat.two_pow_add_eq_or_of_lt hb 0xffffff
          rw [UInt32.toNat_or, Nat.or_comm]
          simp only [UInt8.toNat_toUInt32] 
          rw [show (0xffffff00 : UInt32).toNat = 2 ^ 8 * 0xffffff from rfl, ← this]
          omega
      rw [UInt32.toNat_mul, UInt32.toNat_xor, hext]
      rfl
  exact this (utf8 g) _

theorem hashBytes_digits (g : Str) : (NGram.ofStr g).hashBytes.map UInt8.toNat =
    digits 8 g.length ++ g.flatMap fun c => digits 4 c.toNat := by
  simp only [NGram.hashBytes, NGram.ofStr, List.map_append, leBytes_digits, List.map_flatMap]

/-- C66, bucket vocabularies: the bucket of an n-gram is the FNV-1a hash of its length and its characters modulo the
number of buckets. -/
theorem c66_bucket (exp : Nat) (ix : HashIndexer) (hix : BucketIndexer.newBuckets exp = .ok ix) (g : Str) :
    Indexer.indexNgram ix (NGram.ofStr g) = .ok [ngramHash g % 2 ^ exp] := by
  show Res.ok [_] = _
  rw [and_mask hix, fnv1a64_toNat, hashBytes_digits]
  rfl

/-- C66, fastText vocabularies: the bucket of an n-gram is the hash of fastText modulo the number of buckets. -/
theorem c66_fasttext (n : Nat) (ix : FastTextIndexer) (hix : BucketIndexer.newBuckets n = .ok ix) (h0 : 0 < n)
    (g : Str) : Indexer.indexNgram ix (NGram.ofStr g) = .ok [HashSpec.fasttext g % n] := by
  have hix : FastTextIndexer.new n = .ok ix := hix
  unfold FastTextIndexer.new Res.assert at hix
  split at hix
  · rename_i hn
    have hn : n ≤ 2 ^ 31 - 1 := by simpa using hn
    have hix : ix = ⟨UInt32.ofNat n⟩ := by
      cases hix; rfl
    subst hix
    have hN : (UInt32.ofNat n).toNat = n := by
      rw [UInt32.toNat_ofNat']; omega
    have h1 : UInt32.ofNat n ≠ 0 := by
      intro h
      have := congrArg UInt32.toNat h
      rw [hN] at this
      simp at this; omega
    show FastTextIndexer.index _ _ = _
    rw [FastTextIndexer.index, if_neg h1, UInt32.toNat_mod, hN, fasttextHash_toNat]
    rfl
  · cases hix

/-- Hypotheses of `c66_bucket` and `c66_fasttext`. -/
example := c66_bucket 21 _ rfl "iël".toList
example := c66_fasttext 2000000 _ rfl (by decide) "niël>".toList

/-! ## MurmurHash3 -/

theorem rotl64_toNat (x : UInt64) (r : Nat) (h : 0 < r) (h' : r < 64) :
    (rotl64 x (UInt64.ofNat r)).toNat = rotl r x.toNat := by
  have hr : (UInt64.ofNat r).toNat = r := by rw [UInt64.toNat_ofNat']; omega
  have hr' : (64 - UInt64.ofNat r).toNat = 64 - r := by
    rw [UInt64.toNat_sub_of_le _ _ (by rw [UInt64.le_iff_toNat_le, hr]; exact Nat.le_of_lt h')]
    rw [hr]; rfl
  rw [rotl64, UInt64.toNat_or, UInt64.toNat_shiftLeft, UInt64.toNat_shiftRight, hr, hr',
    Nat.mod_eq_of_lt h', Nat.mod_eq_of_lt (show 64 - r < 64 by omega), Nat.shiftLeft_eq, Nat.shiftRight_eq_div_pow,
    rotl]
  have hx : x.toNat < 2 ^ 64 := x.toNat_lt
  have hp : 2 ^ 64 = 2 ^ r * 2 ^ (64 - r) := by rw [← Nat.pow_add]; congr 1; omega
  have hlt : x.toNat / 2 ^ (64 - r) < 2 ^ r := by
    rw [Nat.div_lt_iff_lt_mul (Nat.two_pow_pos _), ← hp]; exact hx
  have : x.toNat * 2 ^ r % 2 ^ 64 = 2 ^ r * (x.toNat % 2 ^ (64 - r)) := by
    rw [hp, Nat.mul_comm x.toNat, Nat.mul_mod_mul_left]
  rw [this, Nat.two_pow_add_eq_or_of_lt hlt]

theorem leVal_number (bs : Bytes) : leVal bs = number (bs.map UInt8.toNat) := by
  induction bs with
  | nil => rfl
  | cons b bs ih => simp only [leVal, List.map_cons, number, ih]

theorem mixK1_toNat (bs : Bytes) : (mixK1 (UInt64.ofNat (leVal bs))).toNat = k1 (bs.map UInt8.toNat) := by
  rw [mixK1, UInt64.toNat_mul, show (31 : UInt64) = UInt64.ofNat 31 from rfl,
    rotl64_toNat _ 31 (by decide) (by decide), UInt64.toNat_mul, UInt64.toNat_ofNat', leVal_number]
  simp only [k1, c1, c2]
  rw [Nat.mod_mul_mod]
  rfl

theorem mixK2_toNat (bs : Bytes) : (mixK2 (UInt64.ofNat (leVal bs))).toNat = k2 (bs.map UInt8.toNat) := by
  rw [mixK2, UInt64.toNat_mul, show (33 : UInt64) = UInt64.ofNat 33 from rfl,
    rotl64_toNat _ 33 (by decide) (by decide), UInt64.toNat_mul, UInt64.toNat_ofNat', leVal_number]
  simp only [k2, c1, c2]
  rw [Nat.mod_mul_mod]
  rfl

theorem fmix64_toNat (k : UInt64) : (fmix64 k).toNat = fmix k.toNat := by
  simp only [fmix64, fmix, UInt64.toNat_xor, UInt64.toNat_mul, UInt64.toNat_shiftRight]
  rw [show (33 : UInt64).toNat % 64 = 33 from rfl]
  simp only [Nat.shiftRight_eq_div_pow]
  rfl

/-- The loop of the model on whole blocks and a tail. -/
theorem murmurLoop_blocks (blocks : List Bytes) (hbl : ∀ b ∈ blocks, b.length = 16) (tail : Bytes)
    (ht : tail.length < 16) (fuel : Nat) (hf : blocks.length < fuel) (x y : UInt64) :
    let h := (blocks.map fun b => b.map UInt8.toNat).foldl block (x.toNat, y.toNat)
    let r := murmurLoop fuel (blocks.flatten ++ tail) x y
    r.1.toNat = h.1 ^^^ k1 ((tail.map UInt8.toNat).take 8) ∧ r.2.toNat = h.2 ^^^ k2 ((tail.map UInt8.toNat).drop 8) := by
  induction blocks generalizing fuel x y with
  | nil =>
    cases fuel with
    | zero => simp at hf
    | succ fuel =>
      simp only [List.flatten_nil, List.nil_append, murmurLoop, if_pos ht, List.map_nil, List.foldl_nil,
        UInt64.toNat_xor, mixK1_toNat, mixK2_toNat, List.map_take, List.map_drop]
      exact ⟨trivial, trivial⟩
  | cons b bs ih =>
    cases fuel with
    | zero => simp at hf
    | succ fuel =>
      have hb : b.length = 16 := hbl b (by simp)
      have h16 : ¬ ((b :: bs).flatten ++ tail).length < 16 := by
        simp only [List.flatten_cons, List.length_append, hb]; omega
      have e1 : ((b :: bs).flatten ++ tail).take 8 = b.take 8 := by
        rw [List.flatten_cons, List.append_assoc, List.take_append_of_le_length (by omega)]
      have e2 : (((b :: bs).flatten ++ tail).drop 8).take 8 = b.drop 8 := by
        rw [List.flatten_cons, List.append_assoc, List.drop_append_of_le_length (by omega)]
        rw [List.take_append_of_le_length (by simp; omega), List.take_of_length_le (by simp; omega)]
      have e3 : ((b :: bs).flatten ++ tail).drop 16 = bs.flatten ++ tail := by
        rw [List.flatten_cons, List.append_assoc, ← hb, List.drop_left]
      have hih := fun x y => ih (fun b hb => hbl b (by simp [hb])) fuel (by simp at hf; omega) x y
      simp only [murmurLoop, if_neg h16, e1, e2, e3, List.map_cons, List.foldl_cons]
      have hstep : ∀ x' y' : UInt64, (x'.toNat, y'.toNat) = block (x.toNat, y.toNat) (b.map UInt8.toNat) →
          (murmurLoop fuel (bs.flatten ++ tail) x' y').1.toNat = (List.foldl block
            (block (x.toNat, y.toNat) (b.map UInt8.toNat)) (bs.map fun b => b.map UInt8.toNat)).1 ^^^
              k1 ((tail.map UInt8.toNat).take 8) ∧
          (murmurLoop fuel (bs.flatten ++ tail) x' y').2.toNat = (List.foldl block
            (block (x.toNat, y.toNat) (b.map UInt8.toNat)) (bs.map fun b => b.map UInt8.toNat)).2 ^^^
              k2 ((tail.map UInt8.toNat).drop 8) := by
        intro x' y' h
        rw [← h]; exact hih x' y'
      apply hstep
      have a1 : ∀ z : UInt64, (rotl64 z 27).toNat = rotl 27 z.toNat := fun z => rotl64_toNat z 27 (by decide) (by decide)
      have a2 : ∀ z : UInt64, (rotl64 z 31).toNat = rotl 31 z.toNat := fun z => rotl64_toNat z 31 (by decide) (by decide)
      simp only [block, UInt64.toNat_add, UInt64.toNat_mul, UInt64.toNat_xor, a1, a2, mixK1_toNat, mixK2_toNat,
        List.map_take, List.map_drop]
      rw [show (5 : UInt64).toNat = 5 from rfl, show (0x52dce729 : UInt64).toNat = 0x52dce729 from rfl,
        show (0x38495ab5 : UInt64).toNat = 0x38495ab5 from rfl]
      generalize rotl 27 _ = u
      generalize rotl 31 _ = v
      refine Prod.ext ?_ ?_
      · show (_ : Nat) = _
        omega
      · show (_ : Nat) = _
        omega

/-- C66: the two halves of the 128-bit hash. -/
theorem murmur3_toNat (blocks : List Bytes) (hbl : ∀ b ∈ blocks, b.length = 16) (tail : Bytes)
    (ht : tail.length < 16) (seed : UInt32) :
    ((murmur3 (blocks.flatten ++ tail) seed).1.toNat, (murmur3 (blocks.flatten ++ tail) seed).2.toNat) =
      murmur (blocks.map fun b => b.map UInt8.toNat) (tail.map UInt8.toNat) seed.toNat := by
  have hlen : (blocks.flatten ++ tail).length = 16 * blocks.length + tail.length := by
    rw [List.length_append]
    congr 1
    clear ht
    induction blocks with
    | nil => rfl
    | cons b bs ih =>
      rw [List.flatten_cons, List.length_append, ih fun b hb => hbl b (by simp [hb]), hbl b (by simp)]
      simp; omega
  have hl := murmurLoop_blocks blocks hbl tail ht ((blocks.flatten ++ tail).length / 16 + 1)
    (by rw [hlen]; omega) seed.toUInt64 seed.toUInt64
  simp only [UInt32.toNat_toUInt64] at hl
  unfold murmur3
  generalize murmurLoop _ _ _ _ = r at hl ⊢
  obtain ⟨r1, r2⟩ := r
  simp only [UInt64.toNat_add, fmix64_toNat, UInt64.toNat_xor, UInt64.toNat_ofNat', hl.1, hl.2, hlen, murmur,
    List.length_map]
  congr 1
  omega

/-- C66, floret vocabularies: the UTF-8 bytes of the n-gram are hashed with MurmurHash3; bucket `i` of the n-gram is
the `i`-th 32-bit word of the hash, from the lowest, modulo the number of buckets. -/
theorem c66_floret (n k : Nat) (seed : UInt32) (ix : FloretIndexer) (hix : FloretIndexer.new n k seed = .ok ix)
    (g : Str) (blocks : List Bytes) (hbl : ∀ b ∈ blocks, b.length = 16) (tail : Bytes) (ht : tail.length < 16)
    (hg : utf8 g = blocks.flatten ++ tail) :
    ∃ h1 h2, (h1, h2) = murmur (blocks.map fun b => b.map UInt8.toNat) (tail.map UInt8.toNat) seed.toNat ∧
      Indexer.indexNgram ix (NGram.ofStr g) =
        .ok ((List.range k).map fun i => (h1 + 2 ^ 64 * h2) / 2 ^ (32 * i) % 2 ^ 32 % n) := by
  have hm := murmur3_toNat blocks hbl tail ht seed
  refine ⟨_, _, hm, ?_⟩
  obtain ⟨⟨_, hk4⟩, hn, rfl⟩ := FloretIndexer.new_eq_ok.mp hix
  show FloretIndexer.indexWith murmur3 _ _ = _
  unfold FloretIndexer.indexWith
  simp only [NGram.ofStr, hg, hn, if_false]
  generalize murmur3 _ _ = h
  obtain ⟨a, b⟩ := h
  have ha : a.toNat < 2 ^ 64 := a.toNat_lt
  have hb : b.toNat < 2 ^ 64 := b.toNat_lt
  have hw : ∀ i, i < 4 → (hashArray (a, b))[i]? = some ((a.toNat + 2 ^ 64 * b.toNat) / 2 ^ (32 * i) % 2 ^ 32) := by
    intro i hi
    rcases i with _ | _ | _ | _ | i
    · simp [hashArray]; omega
    · simp [hashArray]; omega
    · simp [hashArray]; omega
    · simp [hashArray]; omega
    · omega
  rw [Res.mapM_eq_ok_iff, List.map_map]
  apply List.map_congr_left
  intro i hi
  rw [hw i (by rw [List.mem_range] at hi; omega)]
  rfl

/-- A text with one whole block: hypotheses of `c66_floret`. -/
example := c66_floret 50000 2 2166136261 _ rfl "überspringendes".toList [(utf8 "überspringendes".toList).take 16]
  (by decide +kernel) [] (by decide) (by decide +kernel)

/-- Every string has such blocks. -/
theorem c66_blocks (bs : Bytes) : ∃ (blocks : List Bytes) (tail : Bytes), (∀ b ∈ blocks, b.length = 16) ∧
    tail.length < 16 ∧ bs = blocks.flatten ++ tail := by
  generalize hn : bs.length = n
  induction n using Nat.strongRecOn generalizing bs with
  | _ n ih =>
    by_cases h : bs.length < 16
    · exact ⟨[], bs, by simp, h, rfl⟩
    · obtain ⟨blocks, tail, h1, h2, h3⟩ := ih (bs.drop 16).length (by simp; omega) (bs.drop 16) rfl
      refine ⟨bs.take 16 :: blocks, tail, ?_, h2, ?_⟩
      · intro b hb
        rcases List.mem_cons.mp hb with rfl | hb
        · simp; omega
        · exact h1 b hb
      · rw [List.flatten_cons, List.append_assoc, ← h3, List.take_append_drop]

/-! ## Examples: values of the tests of the library -/

example : ∃ ix, (BucketIndexer.newBuckets 21 : Res HashIndexer) = .ok ix ∧
    ngramHash "Dan".toList % 2 ^ 21 = 214157 ∧ ngramHash "iël".toList % 2 ^ 21 = 233912 ∧
    ngramHash "lo>".toList % 2 ^ 21 = 75867 ∧ ngramHash "hal".toList % 2 ^ 21 = 456131 :=
  ⟨_, rfl, by decide +kernel, by decide +kernel, by decide +kernel, by decide +kernel⟩

example : ∃ ix, (BucketIndexer.newBuckets 2000000 : Res FastTextIndexer) = .ok ix ∧ 0 < 2000000 ∧
    ["<Dani", "Danië", "aniël", "niël>"].map (fun g => HashSpec.fasttext g.toList % 2000000) =
      [749365, 441697, 1105725, 1880616] :=
  ⟨_, rfl, by decide, by decide +kernel⟩

/-- The published value of MurmurHash3_x64_128 for "hello", and the blocks of a longer text. -/
example : murmur [] ("hello".toList.map Char.toNat) 0 = (0xcbd8a7b341bd9b02, 0x5b1e906a48ae1d19) ∧
    (∃ ix, FloretIndexer.new 50000 2 2166136261 = .ok ix) ∧
    utf8 "überspringendes".toList = [(utf8 "überspringendes".toList).take 16].flatten ++ [] ∧
    ((utf8 "überspringendes".toList).take 16).length = 16 :=
  ⟨by decide +kernel, ⟨_, rfl⟩, by decide +kernel, by decide +kernel⟩

end FF
