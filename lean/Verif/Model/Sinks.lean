import Verif.Model.MessagesWrite

/-!
# Sinks that accept data in pieces

`W.run` and `EW.run` hand blocks to a sink that accepts a number of bytes and then fails. Here a sink decides with each call of
`Write::write` how much it accepts, it may be interrupted (`ErrorKind::Interrupted`) or fail for a while, and there may be std's
`BufWriter` in front of it.
-/

namespace FF

namespace Sinks

/-- An answer of a sink to a call of `write`: it is interrupted, accepts at most `k + 1` bytes, accepts nothing (`Ok(0)`), or fails.
Sinks are the `W: Write + Seek` of e.g. src/chunks/io.rs:170-174. -/
inductive Answer where
  | interrupted
  | take (k : Nat)
  | zero
  | fail
deriving DecidableEq, Repr

/-- A sink (`W: Write + Seek`, e.g. src/chunks/io.rs:170-174): what it got, and how it answers the `t`-th call of `write`. -/
structure Sink where
  got : Bytes
  script : Nat → Answer
  time : Nat

/-- The sink after one more call that did not accept anything. Called by the loop below for e.g. src/chunks/vocab/mod.rs:112-114. -/
def Sink.next (s : Sink) : Sink := { s with time := s.time + 1 }

/-- The sink after a call that accepted these bytes. Called by the loop below for e.g. src/chunks/vocab/mod.rs:112-114. -/
def Sink.accept (s : Sink) (b : Bytes) : Sink := { s with got := s.got ++ b, time := s.time + 1 }

/-- std's loop `Write::write_all` (and the loop of `BufWriter::flush_buf`): what was not accepted when it ends. It ends without an
error exactly if this is nothing; `Ok(0)` is an error (`ErrorKind::WriteZero`). Users: e.g. src/chunks/vocab/mod.rs:112-114. -/
inductive WriteAll : Sink → Bytes → Bytes → Sink → Prop
  | done (s : Sink) : WriteAll s [] [] s
  | interrupted {s s' : Sink} {b rest : Bytes} : b ≠ [] → s.script s.time = .interrupted → WriteAll s.next b rest s' →
      WriteAll s b rest s'
  | zero {s : Sink} {b : Bytes} : b ≠ [] → s.script s.time = .zero → WriteAll s b b s.next
  | fail {s : Sink} {b : Bytes} : b ≠ [] → s.script s.time = .fail → WriteAll s b b s.next
  | take {s s' : Sink} {b rest : Bytes} {k : Nat} : b ≠ [] → s.script s.time = .take k →
      WriteAll (s.accept (b.take (k + 1))) (b.drop (k + 1)) rest s' → WriteAll s b rest s'

/-- std's `BufWriter`, as used with the writers in src/chunks/storage/array.rs:440: the sink, what is in the buffer, and the
capacity. A sink without `BufWriter` is one with capacity zero. -/
structure BufWriter where
  inner : Sink
  buf : Bytes
  cap : Nat

/-- `BufWriter::flush_buf`: whether it succeeds; what the sink does not accept stays in the buffer. Called by the functions below, e.g.
for src/chunks/storage/array.rs:219. -/
inductive Flush (w : BufWriter) : Bool → BufWriter → Prop
  | mk {rest : Bytes} {s : Sink} : WriteAll w.inner w.buf rest s → Flush w rest.isEmpty { w with inner := s, buf := rest }

/-- `BufWriter::write_all`: data that fits is put into the buffer; otherwise the buffer is flushed, and data that is not smaller than
the buffer is handed to the sink. Users: e.g. src/chunks/vocab/mod.rs:112-114. -/
inductive Put (w : BufWriter) (b : Bytes) : Bool → BufWriter → Prop
  | fits : b.length < w.cap - w.buf.length → Put w b true { w with buf := w.buf ++ b }
  | flushFails {w' : BufWriter} : w.cap - w.buf.length < b.length → Flush w false w' → Put w b false w'
  | flushed {w' : BufWriter} : w.cap - w.buf.length < b.length → Flush w true w' → b.length < w.cap →
      Put w b true { w' with buf := w'.buf ++ b }
  | flushedDirect {w' : BufWriter} {rest : Bytes} {s : Sink} : w.cap - w.buf.length < b.length → Flush w true w' → w.cap ≤ b.length →
      WriteAll w'.inner b rest s → Put w b rest.isEmpty { w' with inner := s }
  | full : b.length = w.cap - w.buf.length → b.length < w.cap → Put w b true { w with buf := w.buf ++ b }
  | direct {rest : Bytes} {s : Sink} : b.length = w.cap - w.buf.length → w.cap ≤ b.length → WriteAll w.inner b rest s →
      Put w b rest.isEmpty { w with inner := s }

/-- The steps of a writing function, with the error of the step that failed. `stream_position` of a `BufWriter` is a `seek`, which
flushes the buffer; that the sink itself does not know its position is left out here. The pieces that
a `writeln!` hands to the writer are one step, with the error of all of them. E.g. src/chunks/storage/array.rs:216-221. -/
inductive Steps : BufWriter → List Step → Option Error → BufWriter → Prop
  | done (w : BufWriter) : Steps w [] none w
  | put {w w' w'' : BufWriter} {b : Bytes} {e : Error} {ss : List Step} {r : Option Error} : Put w b true w' → Steps w' ss r w'' →
      Steps w (.put b e :: ss) r w''
  | putFails {w w' : BufWriter} {b : Bytes} {e : Error} {ss : List Step} : Put w b false w' → Steps w (.put b e :: ss) (some e) w'
  | tell {w w' w'' : BufWriter} {e : Error} {ss : List Step} {r : Option Error} : Flush w true w' → Steps w' ss r w'' →
      Steps w (.tell e :: ss) r w''
  | tellFails {w w' : BufWriter} {e : Error} {ss : List Step} : Flush w false w' → Steps w (.tell e :: ss) (some e) w'

/-- A writing function, e.g. src/chunks/storage/array.rs:212-272: what the caller gets, and the sink with its buffer afterwards. -/
def Runs (w : EW) (b : BufWriter) (r : ERes Unit) (b' : BufWriter) : Prop :=
  ∃ e, Steps b w.steps e b' ∧ r = match e with
    | some e => .err e
    | none => w.status

end Sinks

end FF
