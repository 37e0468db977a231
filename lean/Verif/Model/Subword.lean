import Verif.Model.HMap

/-!
# N-grams and indexers (src/subword.rs, src/compat/fasttext/indexer.rs, src/compat/floret/indexer.rs)
-/

namespace FF

/-! ## String slicing by byte offsets -/

/-- `&s[off..]`: panics when `off` is past the end or not on a character boundary. User: src/subword.rs:363. -/
def sliceFrom : Str → Nat → Res Str
  | s, 0 => .ok s
  | [], _ + 1 => .panic
  | c :: cs, off + 1 =>
    if off + 1 < c.utf8Size then .panic else sliceFrom cs (off + 1 - c.utf8Size)

/-- `&s[..n]`: panics when `n` is past the end or not on a character boundary. Part of src/subword.rs:365. -/
def sliceTo : Str → Nat → Res Str
  | _, 0 => .ok []
  | [], _ + 1 => .panic
  | c :: cs, n + 1 =>
    if n + 1 < c.utf8Size then .panic else (sliceTo cs (n + 1 - c.utf8Size)).map (c :: ·)

/-- `&s[a..b]`. User: src/subword.rs:365. -/
def slice (s : Str) (a b : Nat) : Res Str :=
  if b < a then .panic else do sliceTo (← sliceFrom s a) (b - a)

/-- `s.char_indices().map(|(i, _)| i)`, starting at byte offset `o`. User: src/subword.rs:324-327. -/
def charOffsetsFrom : Nat → Str → List Nat
  | _, [] => []
  | o, c :: cs => o :: charOffsetsFrom (o + c.utf8Size) cs

/-! ## N-gram iterator -/

/-- src/subword.rs:246-249, `struct StrWithCharLen`. -/
structure NGram where
  inner : Str
  charLen : Nat
deriving DecidableEq, Repr

/-- src/subword.rs:257-264, `StrWithCharLen::new` (also `From<&str>`, :251-255). -/
def NGram.ofStr (s : Str) : NGram := ⟨s, s.length⟩

/-- src/subword.rs:304-310, `struct NGrams`. -/
structure NGrams where
  maxN : Nat
  minN : Nat
  string : Str
  charOffsets : List Nat
  ngramLen : Nat
deriving DecidableEq, Repr

/-- src/subword.rs:316-338, `NGrams::new`. -/
def NGrams.new (s : Str) (minN maxN : Nat) : Res NGrams := do
  Res.assert (minN ≠ 0)
  Res.assert (minN ≤ maxN)
  let offs := charOffsetsFrom 0 s
  return { maxN, minN, string := s, charOffsets := offs, ngramLen := min maxN offs.length }

/-- src/subword.rs:362-373, the part of `NGrams::next` that cuts out the current n-gram and decrements
the length (`-=` on 0 would be an overflow panic). -/
def NGrams.emit (it : NGrams) : Res (Option NGram × NGrams) := do
  let first ← Res.unwrap it.charOffsets[0]?
  let g ←
    if it.ngramLen = it.charOffsets.length then sliceFrom it.string first
    else do
      let last ← Res.unwrap it.charOffsets[it.ngramLen]?
      slice it.string first last
  if it.ngramLen = 0 then .panic
  else .ok (some ⟨g, it.ngramLen⟩, { it with ngramLen := it.ngramLen - 1 })

/-- src/subword.rs:345-376, `NGrams::next`. -/
def NGrams.next (it : NGrams) : Res (Option NGram × NGrams) :=
  if it.ngramLen < it.minN then
    let it := { it with charOffsets := it.charOffsets.tail }
    if it.charOffsets.length < it.minN then .ok (none, it)
    else NGrams.emit { it with ngramLen := min it.maxN it.charOffsets.length }
  else NGrams.emit it

/-- src/subword.rs:378-382, `NGrams::size_hint`: the one number used as lower and as upper bound
(`max_n - min_n` cannot underflow after `new`). -/
def NGrams.sizeHint (it : NGrams) : Nat := (it.maxN - it.minN + 1) * it.charOffsets.length

/-- Call `next` until it returns `None` (what `for`/`collect` do). `fuel` bounds the number of calls; running
out of it is a panic in the model, so a theorem that the outcome is `ok` shows it suffices. Users: e.g.
src/chunks/vocab/subword.rs:470-483. -/
def NGrams.collect : Nat → NGrams → Res (List NGram)
  | 0, _ => .panic
  | fuel + 1, it => do
    let (g, it') ← it.next
    match g with
    | none => return []
    | some g => do
      let gs ← NGrams.collect fuel it'
      return g :: gs

/-- Enough fuel for `collect`: every call of `next` either decrements the length or drops an offset. For
src/subword.rs:345-376. -/
def NGrams.fuel (it : NGrams) : Nat := it.charOffsets.length * (it.maxN + 1) + it.ngramLen + 1

/-- All n-grams of a string: `NGrams::new(s, min_n, max_n).collect()`. src/subword.rs:316-376. -/
def ngrams (s : Str) (minN maxN : Nat) : Res (List NGram) := do
  let it ← NGrams.new s minN maxN
  NGrams.collect it.fuel it

/-! ## Indexers -/

/-- src/subword.rs:386-393, `enum IndicesScope`. -/
inductive Scope where
  | substrings
  | stringAndSubstrings
deriving DecidableEq, Repr

/-- src/subword.rs:20-33, `trait Indexer`. Methods may panic, hence `Res`. `scope`/`infallible` are
associated functions without receiver in Rust; here they take a dummy argument. -/
class Indexer (I : Type) where
  indexNgram : I → NGram → Res (List Nat)
  upperBound : I → Res Nat
  infallible : I → Bool
  scope : I → Scope

/-- src/subword.rs:36-48, `trait BucketIndexer`. -/
class BucketIndexer (I : Type) extends Indexer I where
  newBuckets : Nat → Res I
  buckets : I → Nat

/-- src/subword.rs:285-295, the bytes `Hash for StrWithCharLen` feeds to the hasher. -/
def NGram.hashBytes (g : NGram) : Bytes :=
  leBytes 8 g.charLen ++ g.inner.flatMap fun c => leBytes 4 c.toNat

/-- Crate `fnv`, `FnvHasher` (64-bit FNV-1a), used through src/subword.rs:141. -/
def fnv1a64 (bs : Bytes) : UInt64 :=
  bs.foldl (fun h b => (h ^^^ b.toUInt64) * 0x100000001b3) 0xcbf29ce484222325

/-- src/subword.rs:56-60, `struct HashIndexer` for the hasher `FnvHasher` (`FinalfusionHashIndexer`,
src/subword.rs:141). -/
structure HashIndexer where
  bucketsExp : Nat
  mask : UInt64
deriving DecidableEq, Repr

/-- src/subword.rs:69-86, `HashIndexer::new`. -/
def HashIndexer.new (exp : Nat) : Res HashIndexer := do
  Res.assert (exp ≤ 64)
  return ⟨exp, if exp = 64 then ~~~0 else (1 <<< UInt64.ofNat exp) - 1⟩

/-- src/subword.rs:134-138, `PartialEq for HashIndexer`: compares only the masks. -/
def HashIndexer.eq (a b : HashIndexer) : Bool := a.mask == b.mask

/-- src/subword.rs:114-118, `HashIndexer::index_ngram`, for an arbitrary hash function. -/
def HashIndexer.indexWith (hash : Bytes → UInt64) (ix : HashIndexer) (g : NGram) : List Nat :=
  [(hash g.hashBytes &&& ix.mask).toNat]

/-- src/subword.rs:120-123, `HashIndexer::upper_bound`: `2u64.pow(exp)`, whose overflow (only for
exponent 64) is a panic in builds with overflow checks. Simplification: builds without overflow
checks, where the result wraps to 0, are covered by `HashIndexer.upperBoundWrapping`. -/
def HashIndexer.upperBound (ix : HashIndexer) : Res Nat :=
  if 2 ^ ix.bucketsExp ≤ usizeMax then .ok (2 ^ ix.bucketsExp) else .panic

/-- src/subword.rs:120-123 in a build without overflow checks. -/
def HashIndexer.upperBoundWrapping (ix : HashIndexer) : Nat := 2 ^ ix.bucketsExp % 2 ^ 64

/-- src/subword.rs:109-132 and :62-91. -/
instance : BucketIndexer HashIndexer where
  indexNgram ix g := .ok (ix.indexWith fnv1a64 g)
  upperBound := HashIndexer.upperBound
  infallible _ := true
  scope _ := .substrings
  newBuckets := HashIndexer.new
  buckets ix := ix.bucketsExp

/-- src/compat/fasttext/indexer.rs:73-84, `fasttext_hash` (FNV-1a with sign extension of bytes). -/
def fasttextHash (s : Str) : UInt32 :=
  (utf8 s).foldl
    (fun h b => (h ^^^ (if b.toNat < 128 then b.toUInt32 else b.toUInt32 ||| 0xffffff00)) * 16777619)
    2166136261

/-- src/compat/fasttext/indexer.rs:9-22, `struct FastTextIndexer`. -/
structure FastTextIndexer where
  buckets : UInt32
deriving DecidableEq, Repr

/-- src/compat/fasttext/indexer.rs:28-38, `FastTextIndexer::new`. -/
def FastTextIndexer.new (buckets : Nat) : Res FastTextIndexer := do
  Res.assert (buckets ≤ 2 ^ 31 - 1)
  return ⟨UInt32.ofNat buckets⟩

/-- src/compat/fasttext/indexer.rs:46-49, `FastTextIndexer::index_ngram` (remainder by zero panics). -/
def FastTextIndexer.index (ix : FastTextIndexer) (g : NGram) : Res (List Nat) :=
  if ix.buckets = 0 then .panic else .ok [(fasttextHash g.inner % ix.buckets).toNat]

/-- src/compat/fasttext/indexer.rs:45-62 and :24-43. -/
instance : BucketIndexer FastTextIndexer where
  indexNgram := FastTextIndexer.index
  upperBound ix := .ok ix.buckets.toNat
  infallible _ := true
  scope _ := .substrings
  newBuckets := FastTextIndexer.new
  buckets ix := ix.buckets.toNat

/-! ### murmur3 (crate `murmur3`, `murmur3_x64_128`) -/

/-- 64-bit rotation. Part of `murmur3_x64_128` (crate murmur3), user: src/compat/floret/indexer.rs:51. -/
def rotl64 (x : UInt64) (r : UInt64) : UInt64 := (x <<< r) ||| (x >>> (64 - r))

/-- murmur3 finalisation mix. Part of `murmur3_x64_128` (crate murmur3), user: src/compat/floret/indexer.rs:51.
-/
def fmix64 (k : UInt64) : UInt64 :=
  let k := (k ^^^ (k >>> 33)) * 0xff51afd7ed558ccd
  let k := (k ^^^ (k >>> 33)) * 0xc4ceb9fe1a85ec53
  k ^^^ (k >>> 33)

/-- murmur3 first lane mix. Part of `murmur3_x64_128` (crate murmur3), user: src/compat/floret/indexer.rs:51. -/
def mixK1 (k : UInt64) : UInt64 := rotl64 (k * 0x87c37b91114253d5) 31 * 0x4cf5ad432745937f
/-- murmur3 second lane mix. Part of `murmur3_x64_128` (crate murmur3), user: src/compat/floret/indexer.rs:51.
-/
def mixK2 (k : UInt64) : UInt64 := rotl64 (k * 0x4cf5ad432745937f) 33 * 0x87c37b91114253d5

/-- murmur3 loop over 16-byte blocks and tail; first argument bounds the number of blocks. Part of
`murmur3_x64_128` (crate murmur3), user: src/compat/floret/indexer.rs:51. -/
def murmurLoop : Nat → Bytes → UInt64 → UInt64 → UInt64 × UInt64
  | 0, _, h1, h2 => (h1, h2)
  | fuel + 1, bs, h1, h2 =>
    if bs.length < 16 then
      (h1 ^^^ mixK1 (UInt64.ofNat (leVal (bs.take 8))), h2 ^^^ mixK2 (UInt64.ofNat (leVal (bs.drop 8))))
    else
      let h1 := h1 ^^^ mixK1 (UInt64.ofNat (leVal (bs.take 8)))
      let h1 := (rotl64 h1 27 + h2) * 5 + 0x52dce729
      let h2 := h2 ^^^ mixK2 (UInt64.ofNat (leVal ((bs.drop 8).take 8)))
      let h2 := (rotl64 h2 31 + h1) * 5 + 0x38495ab5
      murmurLoop fuel (bs.drop 16) h1 h2

/-- `murmur3_x64_128(bytes, seed)` as its low and high 64 bits, from the public definition of
MurmurHash3_x64_128 (external crate; used by src/compat/floret/indexer.rs:51-52). -/
def murmur3 (bs : Bytes) (seed : UInt32) : UInt64 × UInt64 :=
  let (h1, h2) := murmurLoop (bs.length / 16 + 1) bs seed.toUInt64 seed.toUInt64
  let h1 := h1 ^^^ UInt64.ofNat bs.length
  let h2 := h2 ^^^ UInt64.ofNat bs.length
  let h1 := h1 + h2
  let h2 := h2 + h1
  let h1 := fmix64 h1
  let h2 := fmix64 h2
  let h1 := h1 + h2
  let h2 := h2 + h1
  (h1, h2)

/-- src/compat/floret/indexer.rs:13-17, `struct FloretIndexer`. -/
structure FloretIndexer where
  nBuckets : Nat
  seed : UInt32
  nHashes : Nat
deriving DecidableEq, Repr

/-- src/compat/floret/indexer.rs:20-34, `FloretIndexer::new`. -/
def FloretIndexer.new (nBuckets nHashes : Nat) (seed : UInt32) : Res FloretIndexer := do
  Res.assert (nHashes > 0 ∧ nHashes ≤ 4)
  Res.assert (nBuckets ≠ 0)
  return ⟨nBuckets, seed, nHashes⟩

/-- src/compat/floret/indexer.rs:54-58: the four 32-bit words of the hash. -/
def hashArray (h : UInt64 × UInt64) : List Nat :=
  [h.1.toNat % 2 ^ 32, h.1.toNat / 2 ^ 32, h.2.toNat % 2 ^ 32, h.2.toNat / 2 ^ 32]

/-- src/compat/floret/indexer.rs:50-66, `FloretIndexer::index_ngram`, for an arbitrary 128-bit hash.
`hash_array[i]` panics for `i ≥ 4` and `% n_buckets` for zero buckets; neither happens for indexers
made by `new`. -/
def FloretIndexer.indexWith (hash : Bytes → UInt32 → UInt64 × UInt64) (ix : FloretIndexer)
    (g : NGram) : Res (List Nat) :=
  let arr := hashArray (hash (utf8 g.inner) ix.seed)
  (List.range ix.nHashes).mapM fun i => do
    let h ← Res.unwrap arr[i]?
    if ix.nBuckets = 0 then .panic else .ok (h % ix.nBuckets)

/-- src/compat/floret/indexer.rs:49-80. -/
instance : Indexer FloretIndexer where
  indexNgram := FloretIndexer.indexWith murmur3
  upperBound ix := .ok ix.nBuckets
  infallible _ := true
  scope _ := .stringAndSubstrings

/-- src/subword.rs:143-149, `struct ExplicitIndexer`. -/
structure ExplicitIndexer where
  ngrams : List Str
  index : HMap Str Nat
  bound : Nat
deriving DecidableEq, Repr

/-- src/subword.rs:163-168: `.enumerate().map(..).collect::<HashMap<_,_>>()`. -/
def indexMap (l : List Str) : HMap Str Nat :=
  l.zipIdx.foldl (fun m p => m.insert p.1 p.2) HMap.empty

/-- src/subword.rs:161-180, `ExplicitIndexer::new`. -/
def ExplicitIndexer.new (ngrams : List Str) : Res ExplicitIndexer := do
  let index := indexMap ngrams
  Res.assert (index.len = ngrams.length)
  return ⟨ngrams, index, index.len⟩

/-- src/subword.rs:204-211, one iteration of the loop of `new_with_indices`; state: the old-to-new
map, the index and the n-grams so far. -/
def ExplicitIndexer.step (st : HMap Nat Nat × HMap Str Nat × List Str) (p : Str × Nat) :
    Res (HMap Nat Nat × HMap Str Nat × List Str) :=
  let (o2n, index, ngrams) := st
  let curIdx := o2n.len
  let (newIdx, o2n) := match o2n.get p.2 with
    | some i => (i, o2n)
    | none => (curIdx, o2n.insert p.2 curIdx)
  match index.get p.1 with
  | some _ => .panic
  | none => .ok (o2n, index.insert p.1 newIdx, ngrams ++ [p.1])

/-- src/subword.rs:198-223, `ExplicitIndexer::new_with_indices`. -/
def ExplicitIndexer.newWithIndices (tuples : List (Str × Nat)) :
    Res (ExplicitIndexer × HMap Nat Nat) := do
  let (o2n, index, ngrams) ← tuples.foldlM ExplicitIndexer.step (HMap.empty, HMap.empty, [])
  return (⟨ngrams, index, o2n.len⟩, o2n)

/-- src/subword.rs:226-245. -/
instance : Indexer ExplicitIndexer where
  indexNgram ix g := .ok (match ix.index.get g.inner with
    | some i => [i]
    | none => [])
  upperBound ix := .ok ix.bound
  infallible _ := false
  scope _ := .substrings

/-! ## Subword-index iterators -/

/-- src/subword.rs:459-509, `NGramsIndicesIter` collected: the n-grams (with the whole string first
when the scope asks for it) and their indices. The iterator indexes lazily; here all n-grams are
produced before indexing, which gives the same items and panics for the same inputs (`c81_lazy`, with the
lazy iterator of Model/Accessors.lean). -/
def subwordIndicesWithNgrams {I : Type} [Indexer I] (ix : I) (s : Str) (minN maxN : Nat) :
    Res (List (Str × List Nat)) := do
  let gs ← ngrams s minN maxN
  let whole := match Indexer.scope ix with
    | .substrings => []
    | .stringAndSubstrings => [NGram.ofStr s]
  (whole ++ gs).mapM fun g => do
    let idx ← Indexer.indexNgram ix g
    return (g.inner, idx)

/-- src/subword.rs:405-428, `SubwordIndices::subword_indices` for `str`, collected. -/
def subwordIndices {I : Type} [Indexer I] (ix : I) (s : Str) (minN maxN : Nat) : Res (List Nat) := do
  let l ← subwordIndicesWithNgrams ix s minN maxN
  return l.flatMap (·.2)

/-- src/subword.rs:505-508, `NGramsIndicesIter::size_hint`: that of the inner n-gram iterator. -/
def ngramsIndicesSizeHint (it : NGrams) : Nat := it.sizeHint

end FF
