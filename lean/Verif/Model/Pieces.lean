import Verif.Model.Floret
import Verif.Model.FastText
import Verif.Model.Wrappers

/-!
# Streams that deliver their data in pieces

`Rd` reads from bytes in memory. Here the readers get their data from a stream that decides with each call of `Read::read` how much
it delivers, and that may be interrupted (`ErrorKind::Interrupted`), with or without std's `BufReader` around it. The loops of std
that the crate calls (`Read::read_exact`, `BufRead::read_until`) are modelled as relations, since a stream that is interrupted
forever keeps them busy forever.
-/

namespace FF

namespace Pieces

/-- A stream (`R: Read + Seek`, e.g. src/io.rs:39-44): the data, the position, and how it answers the `t`-th call of `read`:
interrupted (`none`), or with at most `k + 1` bytes (`some k`). -/
structure Source where
  data : Bytes
  pos : Nat
  script : Nat → Option Nat
  time : Nat

/-- `Read::read` of a stream with a buffer of `n` bytes; `none` is `ErrorKind::Interrupted`. No bytes are delivered at the end of
the data only (or if none are asked for). Called by the loops below for e.g. src/chunks/io.rs:229. -/
def Source.read (s : Source) (n : Nat) : Option Bytes × Source :=
  match s.script s.time with
  | none => (none, { s with time := s.time + 1 })
  | some k =>
    let bs := (s.data.drop s.pos).take (min n (k + 1))
    (some bs, { s with pos := s.pos + bs.length, time := s.time + 1 })

/-- std's `BufReader` (src/io.rs:76, src/chunks/io.rs:150): the stream, what is in the buffer and was not consumed, and the
capacity. A stream without `BufReader` is one with capacity zero, as far as `read` and `seek` are concerned. -/
structure BufReader where
  inner : Source
  buf : Bytes
  cap : Nat

/-- `BufReader::fill_buf`. Called by `read_until` (src/util.rs:104) and `BufReader::read`. -/
def BufReader.fillBuf (b : BufReader) : Option Bytes × BufReader :=
  if b.buf = [] then
    match b.inner.read b.cap with
    | (none, s) => (none, { b with inner := s })
    | (some bs, s) => (some bs, { b with inner := s, buf := bs })
  else (some b.buf, b)

/-- `BufReader::consume`. Called by `read_until` (src/util.rs:104) and `BufReader::read`. -/
def BufReader.consume (b : BufReader) (n : Nat) : BufReader := { b with buf := b.buf.drop n }

/-- `BufReader::read`: an empty buffer is bypassed for reads that are not smaller than it. Called by `read_exact`, e.g.
src/chunks/io.rs:229. -/
def BufReader.read (b : BufReader) (n : Nat) : Option Bytes × BufReader :=
  if b.buf = [] ∧ b.cap ≤ n then
    match b.inner.read n with
    | (r, s) => (r, { b with inner := s })
  else
    match b.fillBuf with
    | (none, b) => (none, b)
    | (some avail, b) => (some (avail.take n), b.consume (min n avail.length))

/-- std's loop `default_read_exact`: the bytes, or `none` for `ErrorKind::UnexpectedEof`. Users: e.g. src/chunks/io.rs:229. -/
inductive DefaultReadExact : BufReader → Nat → Option Bytes → BufReader → Prop
  | done (b : BufReader) : DefaultReadExact b 0 (some []) b
  | eof {b b' : BufReader} {n : Nat} : n ≠ 0 → b.read n = (some [], b') → DefaultReadExact b n none b'
  | more {b b' b'' : BufReader} {n : Nat} {bs : Bytes} {r : Option Bytes} : n ≠ 0 → bs ≠ [] → b.read n = (some bs, b') →
      DefaultReadExact b' (n - bs.length) r b'' → DefaultReadExact b n (r.map (bs ++ ·)) b''
  | interrupted {b b' b'' : BufReader} {n : Nat} {r : Option Bytes} : n ≠ 0 → b.read n = (none, b') →
      DefaultReadExact b' n r b'' → DefaultReadExact b n r b''

/-- `BufReader::read_exact`: from the buffer if it has enough, otherwise with the loop. Users: e.g. src/chunks/io.rs:229. -/
inductive ReadExact : BufReader → Nat → Option Bytes → BufReader → Prop
  | buffered {b : BufReader} {n : Nat} : n ≤ b.buf.length → ReadExact b n (some (b.buf.take n)) (b.consume n)
  | loop {b b' : BufReader} {n : Nat} {r : Option Bytes} : b.buf.length < n → DefaultReadExact b n r b' → ReadExact b n r b'

/-- std's loop of `BufRead::read_until`. User: src/util.rs:104. -/
inductive ReadUntil (delim : UInt8) : BufReader → Bytes → BufReader → Prop
  | interrupted {b b' b'' : BufReader} {bs : Bytes} : b.fillBuf = (none, b') → ReadUntil delim b' bs b'' → ReadUntil delim b bs b''
  | found {b b' : BufReader} {avail used rest : Bytes} : b.fillBuf = (some avail, b') → avail = used ++ delim :: rest → delim ∉ used →
      ReadUntil delim b (used ++ [delim]) (b'.consume (used.length + 1))
  | eof {b b' : BufReader} : b.fillBuf = (some [], b') → ReadUntil delim b [] b'
  | more {b b' b'' : BufReader} {avail bs : Bytes} : b.fillBuf = (some avail, b') → avail ≠ [] → delim ∉ avail →
      ReadUntil delim (b'.consume avail.length) bs b'' → ReadUntil delim b (avail ++ bs) b''

/-- `read_until` line feeds up to the call that returns no data, as in src/compat/text.rs:205-218 and in `BufRead::lines`
(src/compat/floret/io.rs:65). -/
inductive ReadLines : BufReader → List Bytes → BufReader → Prop
  | done {b b' : BufReader} : ReadUntil 10 b [] b' → ReadLines b [] b'
  | line {b b' b'' : BufReader} {l : Bytes} {ls : List Bytes} : ReadUntil 10 b l b' → l ≠ [] → ReadLines b' ls b'' →
      ReadLines b (l :: ls) b''

/-- `BufReader::stream_position`: the position of the stream minus what is in the buffer. Users: e.g. src/chunks/norms.rs:73. -/
def BufReader.position (b : BufReader) : Nat := b.inner.pos - b.buf.length

/-- `BufReader::seek(SeekFrom::Current(n))`: the stream is moved by `n` minus what is in the buffer, and the buffer is dropped.
Users: e.g. src/chunks/norms.rs:76. -/
def BufReader.skip (b : BufReader) (n : Nat) : BufReader :=
  { b with inner := { b.inner with pos := b.inner.pos + n - b.buf.length }, buf := [] }

/-- `BufReader::seek(SeekFrom::Start(n))`: the buffer is dropped. Users: src/chunks/vocab/wrappers.rs:119 and the wrappers of storages. -/
def BufReader.seek (b : BufReader) (n : Nat) : BufReader := { b with inner := { b.inner with pos := n }, buf := [] }

/-- A program that reads from a stream, as a tree of the calls it makes. This is the form of the readers of the crate, e.g.
src/chunks/norms.rs:53-85; what they do between the calls does not depend on the stream. -/
inductive Prog (α : Type) : Type
  | pure (a : α) : Prog α
  | fail (e : Err) : Prog α
  | panic : Prog α
  | exact (n : Nat) (k : Bytes → Prog α) : Prog α
  | readUntil (delim : UInt8) (k : Bytes → Prog α) : Prog α
  | lines (k : List Bytes → Prog α) : Prog α
  | position (k : Nat → Prog α) : Prog α
  | skip (n : Nat) (k : Prog α) : Prog α
  | seek (n : Nat) (k : Prog α) : Prog α
  | map (len : Nat) (k : Mmap → Prog α) : Prog α

/-- A program that does not need `BufRead`, e.g. src/chunks/norms.rs:53-85. -/
def Prog.Plain {α : Type} : Prog α → Prop
  | .pure _ => True
  | .fail _ => True
  | .panic => True
  | .exact _ k => ∀ bs, (k bs).Plain
  | .readUntil _ _ => False
  | .lines _ => False
  | .position k => ∀ p, (k p).Plain
  | .skip _ k => k.Plain
  | .seek _ k => k.Plain
  | .map _ k => ∀ m, (k m).Plain

/-- A program run on bytes in memory: the model of the readers in the other files, e.g. src/chunks/norms.rs:53-85. -/
def Prog.onBytes {α : Type} : Prog α → Rd α
  | .pure a => Pure.pure a
  | .fail e => Rd.fail e
  | .panic => Rd.lift .panic
  | .exact n k => Rd.readExact n >>= fun bs => (k bs).onBytes
  | .readUntil delim k => FF.readUntil delim >>= fun bs => (k bs).onBytes
  | .lines k => fun d pos =>
    (k (rawLines ((d.drop pos).length + 1) (d.drop pos))).onBytes d (pos + (d.drop pos).length)
  | .position k => Rd.position >>= fun p => (k p).onBytes
  | .skip n k => Rd.skip n >>= fun _ => k.onBytes
  | .seek n k => fun d _ => k.onBytes d n
  | .map len k => mapRegion len >>= fun m => (k m).onBytes

/-- A program run on a stream, e.g. src/chunks/norms.rs:53-85. The end of the data in `read_exact` is an I/O error (`?` with
`Error::read_error`); maps are made from the file below the `BufReader` (src/chunks/storage/array.rs:143-161,
src/chunks/storage/quantized.rs:559-587). -/
inductive Runs {α : Type} : Prog α → BufReader → Res (α × BufReader) → Prop
  | pure {a : α} {b : BufReader} : Runs (.pure a) b (.ok (a, b))
  | fail {e : Err} {b : BufReader} : Runs (.fail e) b (.err e)
  | panic {b : BufReader} : Runs .panic b .panic
  | exact {n : Nat} {k : Bytes → Prog α} {b b' : BufReader} {bs : Bytes} {r : Res (α × BufReader)} :
      ReadExact b n (some bs) b' → Runs (k bs) b' r → Runs (.exact n k) b r
  | exactEof {n : Nat} {k : Bytes → Prog α} {b b' : BufReader} : ReadExact b n none b' → Runs (.exact n k) b (.err .io)
  | readUntil {delim : UInt8} {k : Bytes → Prog α} {b b' : BufReader} {bs : Bytes} {r : Res (α × BufReader)} :
      ReadUntil delim b bs b' → Runs (k bs) b' r → Runs (.readUntil delim k) b r
  | lines {k : List Bytes → Prog α} {b b' : BufReader} {ls : List Bytes} {r : Res (α × BufReader)} :
      ReadLines b ls b' → Runs (k ls) b' r → Runs (.lines k) b r
  | position {k : Nat → Prog α} {b : BufReader} {r : Res (α × BufReader)} : Runs (k b.position) b r → Runs (.position k) b r
  | skip {n : Nat} {k : Prog α} {b : BufReader} {r : Res (α × BufReader)} : Runs k (b.skip n) r → Runs (.skip n k) b r
  | seek {n : Nat} {k : Prog α} {b : BufReader} {r : Res (α × BufReader)} : Runs k (b.seek n) r → Runs (.seek n k) b r
  | map {len : Nat} {k : Mmap → Prog α} {b : BufReader} {r : Res (α × BufReader)} : len ≤ isizeMax →
      Runs (k ⟨b.inner.data, b.position, len⟩) (b.skip len) r → Runs (.map len k) b r
  | mapFail {len : Nat} {k : Mmap → Prog α} {b : BufReader} : ¬ len ≤ isizeMax → Runs (.map len k) b (.err .io)

/-- A finalfusion file read from a stream: `q` reads everything up to the storage, `qn` the norms behind it, where an error means
that there are none. src/embeddings.rs:519-547, :485-510. -/
inductive RunsFile {α ν β : Type} (q : Prog α) (qn : Prog ν) (f : α → Option ν → β) (b : BufReader) : Res β → Prop
  | err {e : Err} : Runs q b (.err e) → RunsFile q qn f b (.err e)
  | panic : Runs q b .panic → RunsFile q qn f b .panic
  | norms {a : α} {b' : BufReader} {r : Res (ν × BufReader)} : Runs q b (.ok (a, b')) → Runs qn b' r →
      RunsFile q qn f b ((Embeddings.orNone (r.map (·.1))).map (f a))

end Pieces

end FF
