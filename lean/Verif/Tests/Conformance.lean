import Verif.Model.Accessors
import Verif.Model.Decimal
import Verif.Model.Float
import Verif.Model.FastText
import Verif.Model.Floret
import Verif.Model.Wrappers

/-!
# The unit tests of the target, run on the model

These are tests, not proofs; nothing is proved here and nothing depends on it. The program reads the files in
`/repo/testdata` and checks what the unit tests in `/repo/src` check, with the model in place of the code:

    lake env lean --run Verif/Tests/Conformance.lean /repo

It also compares the model of `f32` with the floating point unit.
-/

namespace FF
namespace Conformance

open Embeddings Ieee

/-- Metadata as text, src/chunks/metadata.rs:55-72. -/
local instance : Toml Str := ⟨id, some⟩
/-- Not looked at by the tests; src/compat/fasttext/io.rs:141-155. -/
local instance : ConfigToml Str := ⟨fun _ => some []⟩
attribute [local instance] scalar scalarNat floatText

abbrev Simple := Embeddings Str SimpleVocab (NdArray F32) F32
abbrev FastText := Embeddings Str FastTextSubwordVocab (NdArray F32) F32

/-- The result, or an exception. -/
def get {α : Type} (what : String) : Res α → IO α
  | .ok a => pure a
  | .err e => throw (IO.userError s!"{what}: error {repr e}")
  | .panic => throw (IO.userError s!"{what}: panic")

def file (root name : String) : IO Bytes := do
  return (← IO.FS.readBinFile s!"{root}/testdata/{name}").toList

def check (what : String) (b : Bool) : IO Unit :=
  if b then IO.println s!"ok    {what}" else do
    IO.println s!"FAIL  {what}"
    throw (IO.userError what)

def near (eps : Float) (x y : F32) : Bool := ((Float32.ofBits x).toFloat - (Float32.ofBits y).toFloat).abs ≤ eps

def nearRow (eps : Float) (xs ys : List F32) : Bool := xs.length == ys.length && (List.zipWith (near eps) xs ys).all id

def nearMat (eps : Float) (a b : Mat F32) : Bool :=
  a.cols == b.cols && a.rows.length == b.rows.length && (List.zipWith (nearRow eps) a.rows b.rows).all id

def words (l : List (WordSim F32)) : List String := l.map fun r => String.ofList r.word

def str (s : String) : Str := s.toList

def reject {α : Type} : Res α → Bool
  | .err _ => true
  | _ => false

/-- src/similarity.rs:389-430. -/
def orderBerlin : List String :=
  ["Potsdam", "Hamburg", "Leipzig", "Dresden", "München", "Düsseldorf", "Bonn", "Stuttgart", "Weimar",
   "Berlin-Charlottenburg", "Rostock", "Karlsruhe", "Chemnitz", "Breslau", "Wiesbaden", "Hannover", "Mannheim", "Kassel",
   "Köln", "Danzig", "Erfurt", "Dessau", "Bremen", "Charlottenburg", "Magdeburg", "Neuruppin", "Darmstadt", "Jena", "Wien",
   "Heidelberg", "Dortmund", "Stettin", "Schwerin", "Neubrandenburg", "Greifswald", "Göttingen", "Braunschweig", "Berliner",
   "Warschau", "Berlin-Spandau"]

/-- src/similarity.rs:376-387. -/
def orderStuttgart : List String :=
  ["Karlsruhe", "Mannheim", "München", "Darmstadt", "Heidelberg", "Wiesbaden", "Kassel", "Düsseldorf", "Leipzig", "Berlin"]

/-- src/similarity.rs:432-473. -/
def orderAnalogy : List String :=
  ["Deutschland", "Westdeutschland", "Sachsen", "Mitteldeutschland", "Brandenburg", "Polen", "Norddeutschland", "Dänemark",
   "Schleswig-Holstein", "Österreich", "Bayern", "Thüringen", "Bundesrepublik", "Ostdeutschland", "Preußen", "Deutschen",
   "Hessen", "Potsdam", "Mecklenburg", "Niedersachsen", "Hamburg", "Süddeutschland", "Bremen", "Russland", "Deutschlands",
   "BRD", "Litauen", "Mecklenburg-Vorpommern", "DDR", "West-Berlin", "Saarland", "Lettland", "Hannover", "Rostock",
   "Sachsen-Anhalt", "Pommern", "Schweden", "Deutsche", "deutschen", "Westfalen"]

/-- src/similarity.rs:559-670. -/
def similarityTests (root : String) : IO Unit := do
  let d ← file root "similarity.bin"
  let (e, _) ← get "similarity.bin" ((readWord2vec false : Rd Simple) d 0)
  for (limit, batch) in [(40, none), (10, none), (40, some 17)] do
    let r ← get "word_similarity" (e.wordSimilarity (str "Berlin") limit batch)
    check s!"word_similarity Berlin {limit} {batch}" (r.map words == some (orderBerlin.take limit))
  let some v ← get "embedding" (e.embedding (str "Berlin")) | throw (IO.userError "Berlin")
  let r ← get "embedding_similarity" (e.embeddingSimilarity v 10 none)
  check "embedding_similarity" (r.map words == some ("Berlin" :: orderBerlin.take 9))
  let r ← get "word_similarity" (e.wordSimilarity (str "Stuttgart") 10 none)
  check "word_similarity Stuttgart" (r.map words == some orderStuttgart)
  let d ← file root "analogy.bin"
  let (e, _) ← get "analogy.bin" ((readWord2vec false : Rd Simple) d 0)
  for batch in [none, some 17] do
    let r ← get "analogy" (e.analogy (str "Paris") (str "Frankreich") (str "Berlin") 40 batch)
    check s!"analogy {batch}" (match r with
      | .ok l => words l == orderAnalogy
      | .error _ => false)
  for (a, b, c, x) in [("Foo", "Frankreich", "Berlin", (false, true, true)), ("Paris", "Foo", "Berlin", (true, false, true)),
      ("Paris", "Frankreich", "Foo", (true, true, false))] do
    let r ← get "analogy" (e.analogy (str a) (str b) (str c) 40 none)
    check s!"analogy {a} {b} {c}" (match r with
      | .ok _ => false
      | .error y => x == y)

/-- src/similarity.rs:503-557. -/
def measureTests : IO Unit := do
  for (c, dist, sim) in [((1 : Float32), (0 : Float32), (1 : Float32)), (0.70710678, 0.76537, 0.61732),
      (0, 1.4142135, 0.29289323), (-1, 2, 0)] do
    check s!"euclidean distance and similarity {c}" (near 1e-5 (euclideanDistance c.toBits) dist.toBits &&
      near 1e-5 (euclideanSimilarity c.toBits) sim.toBits)

/-- src/compat/word2vec.rs:179-245 and src/compat/text.rs:366-481. -/
def textTests (root : String) : IO Unit := do
  let bin ← file root "utf8-incomplete.bin"
  let txt ← file root "utf8-incomplete.txt"
  let dims ← file root "utf8-incomplete.dims"
  check "invalid UTF-8" (reject ((readWord2vec false : Rd Simple) bin 0) && reject (readText false txt 0 : Res Simple) &&
    reject (readTextDims false dims 0 : Res Simple))
  let lossy := [str "meren", str "zee�n", str "rivieren"]
  let (e, _) ← get "word2vec lossy" ((readWord2vec true : Rd Simple) bin 0)
  check "word2vec lossy" (Vocab.words e.vocab == lossy)
  let e : Simple ← get "text lossy" (readText true txt 0)
  check "text lossy" (Vocab.words e.vocab == lossy)
  let e : Simple ← get "text dims lossy" (readTextDims true dims 0)
  check "text dims lossy" (Vocab.words e.vocab == lossy)
  let bin ← file root "similarity.bin"
  let txt ← file root "similarity.nodims"
  let dims ← file root "similarity.txt"
  let (raw, q) ← get "similarity.bin" ((readWord2vecRaw false : Rd Simple) bin 0)
  check "word2vec shape" (Vocab.wordsLen raw.vocab == 41 && raw.dims == 100)
  check "word2vec consumed" (bin.length - q ≤ 1)
  check "word2vec round trip" ((raw.writeWord2vec false).bytes == bin)
  let t : Simple ← get "similarity.nodims" (readTextRaw false txt 0)
  check "text equals word2vec" (Vocab.words t.vocab == Vocab.words raw.vocab && t.storage == raw.storage)
  check "text round trip" ((t.writeText false).bytes == txt)
  let t : Simple ← get "similarity.txt" (readTextDimsRaw false dims 0)
  check "text dims equals word2vec" (Vocab.words t.vocab == Vocab.words raw.vocab && t.storage == raw.storage)
  check "text dims round trip" ((t.writeTextDims false).bytes == dims)
  let (n, _) ← get "similarity.bin" ((readWord2vec false : Rd Simple) bin 0)
  let (u, _) ← get "unnormalized" ((readWord2vecRaw false : Rd Simple) (n.writeWord2vec true).bytes 0)
  check "word2vec unnormalized" (nearMat 1e-6 u.storage.inner raw.storage.inner)
  let n : Simple ← get "similarity.nodims" (readText false txt 0)
  let u : Simple ← get "unnormalized" (readTextRaw false (n.writeText true).bytes 0)
  check "text unnormalized" (nearMat 1e-6 u.storage.inner raw.storage.inner)

def hasWord (name : String) (x : Float32) (r : WordSim F32) : Bool :=
  String.ofList r.word == name && near 1e-6 r.similarity x.toBits

/-- src/compat/fasttext/io.rs:619-653, src/embeddings.rs:815-833, :869-890. -/
def fastTextTests (root : String) : IO Unit := do
  let d ← file root "fasttext.bin"
  let (e, _) ← get "fasttext.bin" ((readFastText false : Rd FastText) d 0)
  let some r ← get "word_similarity" (e.wordSimilarity (str "über") 3 none) | throw (IO.userError "über")
  check "fastText known word" (match r with
    | [a, b, c] => hasWord "auf" 0.568513 a && hasWord "vor" 0.551551 b && hasWord "durch" 0.547349 c
    | _ => false)
  let some r ← get "word_similarity" (e.wordSimilarity (str "unknown") 3 none) | throw (IO.userError "unknown")
  check "fastText unknown word" (match r with
    | [a, b, c] => hasWord "einer" 0.691177 a && hasWord "und" 0.576449 b && hasWord "des" 0.570398 c
    | _ => false)
  let w := (e.writeFastText).bytes
  let (e', _) ← get "written" ((readFastText false : Rd FastText) w 0)
  check "fastText round trip" (Vocab.words e'.vocab == Vocab.words e.vocab && e'.vocab.minN == e.vocab.minN &&
    e'.vocab.maxN == e.vocab.maxN && e'.vocab.indexer == e.vocab.indexer && nearMat 1.1920929e-7 e'.storage.inner e.storage.inner)
  let zeros := List.replicate e.dims (0 : F32)
  for (w, target) in [("ganz", zeros), ("iddqd", zeros), ("idspispopd", List.replicate e.dims 0x3f800000)] do
    let (found, v) ← get "embedding_into" (e.embeddingInto (str w) target)
    let v' ← get "embedding" (e.embedding (str w))
    check s!"embedding_into {w}" (found && some v == v')
  let x : Embeddings Str ExplicitSubwordVocab (NdArray F32) F32 ← get "to_explicit" (Embeddings.toExplicit id id e)
  let a ← get "embedding" (e.embedding (str "ganz"))
  let b ← get "embedding" (x.embedding (str "ganz"))
  check "to_explicit ganz" (a == b && a.isSome)
  let i ← get "index_ngram" (Indexer.indexNgram e.vocab.indexer (NGram.ofStr (str "anz")))
  let j ← get "index_ngram" (Indexer.indexNgram x.vocab.indexer (NGram.ofStr (str "anz")))
  match i, j with
  | [i], [j] => do
    let a ← get "row" (Storage.embedding e.storage (i + Vocab.wordsLen e.vocab))
    let b ← get "row" (Storage.embedding x.storage (j + Vocab.wordsLen e.vocab))
    check "to_explicit anz" (a == b)
  | _, _ => check "to_explicit anz" false

/-- The string literal that the function `name` of a source file returns. -/
def literal (src name : String) : List Char :=
  let rest := (((src.splitOn s!"fn {name}() -> &'static str").getD 1 "").splitOn "\"").drop 1
  let rec go : List String → List Char
    | [] => []
    | s :: t => if s.endsWith "\\" then s.toList.dropLast ++ '"' :: go t else s.toList
  go rest

def utf8 (s : List Char) : Bytes := (String.ofList s).toUTF8.toList

/-- src/compat/floret/io.rs:214-256. -/
def floretTests (root : String) : IO Unit := do
  let src ← IO.FS.readFile s!"{root}/src/compat/floret/io.rs"
  for (f, t) in [("floret_embeds_small_text", "check_embeds"), ("floret_embeds_square_brackets", "check_embeds_square_brackets")] do
    let d := utf8 (literal src f)
    let e : Embeddings Str FloretSubwordVocab (NdArray F32) F32 ← get f (Embeddings.readFloret d 0)
    let t : Simple ← get t (readTextDims false (utf8 (literal src t)) 0)
    check s!"{f} words" ((Vocab.words t.vocab).length == 10)
    for w in Vocab.words t.vocab do
      let some a ← get "embedding" (e.embedding w) | throw (IO.userError "no embedding")
      let some b ← get "embedding" (t.embedding w) | throw (IO.userError "no embedding")
      check s!"{f} {String.ofList w}" (nearRow 1e-4 a b)
    if f == "floret_embeds_small_text" then check s!"{f} round trip" ((Embeddings.writeFloret e).bytes == d)

/-- src/embeddings.rs:835-867, :892-965; that the files `similarity.fifu` and `quantized.fifu`, which the code wrote
once, are written again as they are is not among the unit tests. -/
def embeddingsTests (root : String) : IO Unit := do
  let (e, _) ← get "similarity.bin" ((readWord2vecRaw false : Rd Simple) (← file root "similarity.bin") 0)
  let names := ["Berlin", "Bremen", "Groningen", "Bremen", "Berlin", "Amsterdam"].map str
  for order in [id, List.reverse] do
    let (m, found) ← get "embedding_batch" (e.embeddingBatch order names)
    check "embedding_batch found" (found == [true, true, false, true, true, false])
    for (w, r) in names.zip m.rows do
      let v ← get "embedding" (e.embedding w)
      check s!"embedding_batch {String.ofList w}" (v.all (· == r))
  let d ← file root "similarity.fifu"
  let s : Simple ← get "similarity.fifu" (Embeddings.read d 0)
  check "read similarity.fifu" (s.vocab == e.vocab && s.storage == e.storage)
  check "rewrite similarity.fifu" ((s.write 0).bytes == d)
  let m : Embeddings Str SimpleVocab MmapArray F32 ← get "mmap" (Embeddings.mmap mmapNdArray d 0)
  let v ← get "view" (StorageView.view m.storage)
  check "mmap similarity.fifu" (m.vocab == e.vocab && v == e.storage.inner)
  let nv ← get "new" (SimpleVocab.new [str "norms", str "test"])
  let n : Simple := ⟨none, ⟨⟨1, [[0x3f800000], [0xbf800000]]⟩⟩, nv, some ⟨[0x40000000, 0x40400000]⟩⟩
  let n' : Simple ← get "norms" (Embeddings.read (n.write 0).bytes 0)
  check "norms" (n == n')
  let withMeta : Simple := { e with metadata := some ⟨str "[description]\nlanguage = \"de\"\n"⟩ }
  for e in [e, withMeta] do
    let e' : Simple ← get "written" (Embeddings.read (e.write 0).bytes 0)
    check "write and read" (e' == e && (e.write 0).bytes.length == e.writeLen 0)
  let (f, _) ← get "fasttext.bin" ((readFastText false : Rd FastText) (← file root "fasttext.bin") 0)
  let qd ← file root "quantized.fifu"
  let q : Embeddings Str SimpleVocab (QuantizedArray F32) F32 ← get "quantized.fifu" (Embeddings.read qd 0)
  check "rewrite quantized.fifu" ((q.write 0).bytes == qd)
  for off in List.range 16 do
    check s!"length at offset {off}" ((e.write off).bytes.length == e.writeLen off && (withMeta.write off).bytes.length == withMeta.writeLen off &&
      (f.write off).bytes.length == f.writeLen off && (q.write off).bytes.length == q.writeLen off)

/-- src/chunks/storage/quantized.rs:836-893. -/
def quantizedTests (root : String) : IO Unit := do
  let d ← file root "quantized_storage.bin"
  let (q, _) ← get "read" ((readQuantizedArray : Rd (QuantizedArray F32)) d 0)
  let (m, _) ← get "mmap" (mmapQuantizedArray d 0)
  let r ← get "reconstruct" m.reconstruct
  check "quantized shapes" (Storage.shape q == Storage.shape m && Storage.shape r == Storage.shape m && 0 < q.codes.nrows)
  check "rewrite quantized_storage.bin" ((WriteChunk.writeChunk m 0).bytes == d && (WriteChunk.writeChunk q 0).bytes == d)
  let mut all := true
  for i in List.range q.codes.nrows do
    let a ← get "row" (Storage.embedding q i)
    let b ← get "row" (Storage.embedding m i)
    let c ← get "row" (Storage.embedding r i)
    all := all && a == b && b == c
  check "quantized rows" all

/-- src/chunks/vocab/subword.rs:815-831. -/
def conversionTests : IO Unit := do
  let ix ← get "new" (HashIndexer.new 21)
  let v ← get "new" (SubwordVocab.new [str "groß", str "allerdings"] 3 6 ix)
  let dings := NGram.ofStr (str "dings")
  let gro := NGram.ofStr (str "<gro")
  for order in [id, List.reverse] do
    let (x, _) ← get "to_explicit" (FF.toExplicit order v)
    let a ← get "index_ngram" (Indexer.indexNgram x.indexer dings)
    let b ← get "index_ngram" (Indexer.indexNgram x.indexer gro)
    let c ← get "index_ngram" (Indexer.indexNgram v.indexer dings)
    let d ← get "index_ngram" (Indexer.indexNgram v.indexer gro)
    let len ← get "vocab_len" (Vocab.vocabLen x)
    let bound ← get "upper_bound" (Indexer.upperBound x.indexer)
    check "test_conversion" (a == b && c == d && len == Vocab.wordsLen x + 43 && bound == 43)

/-- Another random number. -/
def next (s : UInt64) : UInt64 := s * 6364136223846793005 + 1442695040888963407

/-- The floating point unit gives the same result; all numbers that are not a number count as one. Not a unit test. -/
def same (x : F32) (y : Float32) : Bool := if isNan x then y.isNaN else x == y.toBits

/-- The model of `f32` against the floating point unit, on random bit patterns of similar and of any magnitude. Not a unit test. -/
def floatTests (n : Nat) : IO Unit := do
  let mut s : UInt64 := 1
  let mut bad := 0
  for i in List.range n do
    s := next s
    let x := (s >>> 32).toUInt32
    s := next s
    let y := (s >>> 32).toUInt32
    let y := if i % 2 == 0 then y else (y &&& 0x81ffffff) ^^^ (x &&& 0x7e000000)
    let x := if i % 7 == 0 then x &&& 0x80ffffff else x
    let fx := Float32.ofBits x
    let fy := Float32.ofBits y
    unless same (add x y) (fx + fy) && same (sub x y) (fx - fy) && same (mul x y) (fx * fy) && same (div x y) (fx / fy) &&
        same (sqrt x) fx.sqrt do
      bad := bad + 1
      if bad < 5 then IO.println s!"{x} {y}"
  check s!"f32 arithmetic, {n} pairs" (bad == 0)

def main (args : List String) : IO Unit := do
  let root := args.headD "/repo"
  measureTests
  similarityTests root
  textTests root
  fastTextTests root
  floretTests root
  embeddingsTests root
  quantizedTests root
  conversionTests
  floatTests 100000

end Conformance
end FF

def main (args : List String) : IO Unit := FF.Conformance.main args
