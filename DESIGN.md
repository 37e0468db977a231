# Design

Target: finalfusion-rust in `/repo` (read as text, never built or run). The properties are in
`properties.jsonl` (C01...). The Lean project is in `lean/`, the status of each property in
`MANIFEST.json`, the mutation experiments in `seeded/LOG.jsonl`.

Layout of the Lean project:

* `Verif/Model/*.lean`: the model, function by function; every definition cites the file and lines it models.
* `Verif/Lemmas/*.lean`: auxiliary lemmas about the model (not claims).
* `Verif/Props/*.lean`: the claims. Each file begins with the small specification its theorems are stated
  with; a theorem `cNN_...` belongs to property CNN unless `MANIFEST.json` says otherwise; the `example` beside
  it shows a concrete case that meets the hypotheses.

## 1. Trusted base

### Kernel and axioms

Lean 4.33.0's kernel and Mathlib's library. No own axioms, no `sorry`, no `native_decide`/`bv_decide`. Every
theorem rests on at most `propext`, `Quot.sound` and `Classical.choice`; section 4 lists the axioms of each
claimed theorem.

### Which code is modelled

| Source file | Model file | Not modelled there |
|---|---|---|
| src/chunks/io.rs | Model/Io, Model/Messages (`Display`) | |
| src/chunks/vocab/{mod,simple,subword}.rs | Model/Vocab, Model/VocabIO | |
| src/chunks/vocab/wrappers.rs, src/chunks/storage/wrappers.rs | Model/Wrappers | |
| src/chunks/storage/{mod,array,quantized}.rs | Model/Storage, Model/Quantize, Model/Endian (big-endian branches) | `view_mut`; the default random number generator of `quantize` |
| src/chunks/{norms,metadata}.rs | Model/Storage | |
| src/subword.rs | Model/Subword | `Debug`, `Clone` |
| src/compat/{fasttext,floret}/indexer.rs | Model/Subword | |
| src/compat/fasttext/io.rs | Model/FastText | |
| src/compat/floret/io.rs | Model/Floret | |
| src/compat/{text,word2vec}.rs | Model/Text, Model/Decimal (texts of floats) | |
| src/embeddings.rs | Model/Embeddings, Model/Quantize, Model/Resume (positions after reading), Model/Requests (all readers with their requests for memory), Model/Failing (all readers on streams that fail), Model/Pieces (streams that deliver data in pieces), Model/Sinks (sinks that accept data in pieces), Model/Iterators (iterators call by call), Model/Equality (`==` of indexers and vocabularies) | |
| src/similarity.rs | Model/Similarity, Model/Measures (real numbers), Model/Float (floats) | `f32::acos` |
| src/util.rs | Model/Embeddings, Model/Text, Model/Storage | `collect_with_capacity` (a `collect`) |
| src/error.rs | the kind of an error (`Err`); whole errors for all readers (Model/Messages, Model/MessagesCompat) and writers (Model/MessagesWrite), for conversions and quantization (Model/MessagesConvert) | the inner errors of other crates |
| src/io.rs, src/lib.rs, src/prelude.rs, `mod.rs` files | traits and re-exports only | |

Plain accessors, constructors that only fill fields, `Deref` and `From` implementations are the fields and
constructors of the model's structures. Tests and benches are not modelled.

The model was run, once and outside the proofs, on the repository's own test data: `Verif/Tests/Conformance.lean` repeats the unit
tests of src/similarity.rs (:503-670), src/embeddings.rs, src/compat/{word2vec,text}.rs, src/compat/fasttext/io.rs,
src/compat/floret/io.rs, src/chunks/storage/quantized.rs (those on `testdata`) and src/chunks/vocab/subword.rs (:816) with the model in place of the code. It
reads, among others, files that the code wrote (`similarity.fifu`, `quantized.fifu`, `quantized_storage.bin`), which the model
writes again byte for byte, and compares the model of `f32` arithmetic with the floating point unit on 100 000 random pairs. All 101
checks pass. These are tests, not proofs: they are evidence that the model is faithful. The file is compiled by `lake build` but
only run by hand: `lake env lean --run Verif/Tests/Conformance.lean /repo`.

### Modelled as parameters

Assumptions about these are hypotheses of the theorems that need them.

* TOML printing and parsing (class `Toml`); the law `parse (print t) = some t` is a hypothesis.
* `f32` arithmetic in lookups, similarity and quantization (class `Scalar`: zero, one, `+ - * /`, square root, test for zero,
  `dot`, `sum`). Theorems that do not mention real numbers hold for every interpretation, hence also for IEEE arithmetic with any
  order of summation. C38, C46, C52 and C63 are about exact real numbers; C76, C77, C78, C91 and C92 are about the bit-exact instance
  `Ieee.scalar` (below).
* Comparison of floats (class `ScalarOrd`; laws in `LawfulScalarOrd`). There is also the concrete IEEE order of `f32` bit
  patterns, and the laws are proved for it.
* Text of floats (class `FloatText`; the instance `Ieee.floatText` below is the one of C79), bits of floats (`FloatBits`), natural numbers as floats (`ScalarNat`), the TOML
  rendering of the fastText configuration (`ConfigToml`).
* What other crates say of bytes that are not UTF-8 and of text that is not TOML (class `ErrorText`).
* What std and the crate toml say of text that is not a number and of a configuration that cannot be serialized (class `ParseText`).
* Training and encoding by the crate reductive (`PqTrainer`, contract `TrainerContract`).
* The iteration order of each hash map that the code observes.

### Modelled concretely although defined elsewhere (std or other crates)

Little-endian integers (byteorder); `Vec`, `String`, `HashMap` (`HMap`), `BTreeSet`; `BinaryHeap` as the list of its elements;
`Read + Seek` over data that does not change, where seeking behind the end is allowed and reading behind it fails;
`BufRead::read_until` and `lines`; UTF-8, `from_utf8_lossy`, `trim`, `split`, printing and parsing of `usize`;
FNV-1a and murmur3 (x64, 128 bits); ndarray's row access, `select`, `sum_axis`, `axis_chunks_iter`, `from_shape_vec` and
the panics of `Array::zeros`; `dot` of a matrix with a vector as one `dot` per row; reconstruction by a product
quantizer (reductive); memory maps with pages of 4096 bytes; `f64::log2` of a natural number, truncated. For C121 only (Model/Sinks): `Write::write_all` and std's `BufWriter`. For C120 only (Model/Pieces): the loops
of `Read::read_exact` and `BufRead::read_until`, and `BufReader`; there all lines are read before the first one is parsed.

`f32` (Model/Float, used by C76-C78, C91 and C92): `+ - * /`, `sqrt` and the conversion of natural numbers (`as f32`) on bit patterns, to nearest with ties to even. That these are the IEEE operations is proved against an
independent specification (Lemmas/FloatNearest: `ieee_add`, `ieee_sub`, `ieee_mul`, `ieee_div`, `ieee_sqrt`, `ieee_nan`, `ieee_infinite`, `ieee_infinities`, `ieee_sign`, `ieee_constants`; the value of a bit pattern is
linked to the one of C41 by `val_scaled`). NaNs have one bit pattern. `dot` and `sum` follow ndarray 0.15's `unrolled_dot` and `unrolled_fold` (eight lanes), which is what runs
without BLAS on contiguous rows; that the code there is as modelled was taken from knowledge of that crate, whose source is not in `/repo`. No fused multiply-add: Rust does not contract.

`f32::to_string` and `str::parse::<f32>` (Model/Decimal, used by C79): the shortest decimal number in the interval that is rounded to the float, chosen as in core's `flt2dec` (Dragon; the
faster Grisu gives the same digits or gives up), written without exponent; parsing as core's `dec2flt`, whose algorithms are specified to round once, to nearest. Written from knowledge of
core, whose source is not in `/repo`.

### Conventions and simplifications

* `Res α` is `ok a | err e | panic`. A panic is a value, so "never panics" is a statement. A crash (SIGBUS) of a memory map is
  modelled as a panic too.
* `usize` has 64 bits and the machine is little-endian, except in Model/WordSize (finalfusion readers with 32-bit words, C94) and
  Model/Endian (C93). Integers are `Nat`; each narrowing `as` is an explicit `% 2^32`. Sums that overflow only for objects
  larger than the address space are not wrapped. `n_words * dims` (text), `n_buckets * dims` (floret) and the sizes of
  maps are checked multiplications that panic, as in a build with overflow checks; Model/Overflow has both builds (C95, C96).
* Capacity overflows of lengths found in files are panics; running out of memory below `isize::MAX` is not modelled; which requests are made is (Model/Requests, C102).
* An `f32` in a file is its bit pattern (`F32 = UInt32`): statements about files are bit exact.
* The position of a stream after an error is not modelled, except after the attempt to read norms (Model/Resume, C90); no other
  caller uses it.
* A writer is the list of blocks passed to `write_all` with a final status, so that each failure point of the
  underlying writer can be expressed. A `writeln!` counts as one block.
* One-column matrices: ndarray sums them in another order than rows are added; theorems that compare both carry
  the equality of both sums as a hypothesis for dimension 1.

### Not modelled

Rounding in the theorems about real numbers; BLAS; the file system calls of memory mapping other than their
effect described above; changes of a file while it is mapped; the texts of errors of other crates; timing.

## 2. Plan per property

Format layer (`Rd`: data and position to outcome and new position; `W`: writer):

* C01, C02: round trip of the header by composition of fields; refusal by case analysis for arbitrary data.
* C03: padding arithmetic at every offset; position of the data in the written bytes.
* C04-C06: sum over the blocks of each writer; equality with `chunk_len`.
* C07-C15: `ReadsAt p off bytes value` quantifies over everything before and after the chunk and is closed under composition.
  C08, C09, C10 are false as stated (markers, words not stored): negations with witnesses, and the true part as `_partial`; C68
  says exactly what is kept in all cases. C14 assumes the law of TOML. In C15 trailing bytes must not look like norms
  when there are none.
* C16: case analysis for arbitrary data, not only for written data.
* C17: readers are monotone (`Mono`): an outcome that is not an I/O error stays the same if bytes are appended. C18 is false: witnesses, and
  the part that holds; C70 says exactly which cuts are noticed.
* C19: run of the blocks against a sink that accepts n bytes.
* C20: `read_metadata` compared with `read_embeddings` on written bytes.
* C21: the mapped region decoded row by row equals the matrix that is read; lookups agree. C71 says what a lookup in any map
  returns. C59 is false: witnesses.
* C56 is false; C64 characterises exactly which bytes panic, chunk by chunk (`NoPanic`-style equivalences), and C67 exactly which
  bytes are accepted with which result. C65 fixes the bytes that are written, with a specification of the format that shares no code
  with the model.

Vocabulary layer:

* C22, C23: insertion of all words into a map. C24: bounds per indexer and the offset of the words. C25 via C26.
* C26: the iterator is modelled with its queue of offsets; the specification takes substrings of the characters. C69 counts them and says
  when the size hint is exact. C27 is false: witnesses, the upper bound that holds in every state, and exactly when the hints of fresh iterators are right (Props/Hints).
* C28, C29: range and acceptance; C66 specifies the hash functions themselves. C30: invariant of the renumbering fold. C31: both iterators
  list the same n-grams.
* C32, C33, C72: conversion to explicit n-grams with both iteration orders as parameters. C33 is false for custom markers; C72 describes
  what happens with any markers.

Embeddings layer (generic over the scalars):

* C34, C35 (every iteration order), C36, C39, C40, C47, C58: by unfolding lookups into storage rows. C37 is false: witness bytes.
* C38, C46, C63: real numbers.
* C76-C78: single precision. Each operation errs by at most 2^-24 of its result (or 2^-150); an induction over the lanes of the sum (`SumRel`) bounds the error of inner products by
  the depth n/8 + 13; overflow is excluded by bounds on lengths. Monotonicity of rounding (`Rounds`) gives ranges and order of the measures. C77 is false: witness file. C78 combines C41
  (which needs no NaN) with the error bounds.
* C73: the vector of a word from first principles (relation `IsSumVector`), for each vocabulary type. C74: rows of quantized storages.
* C41, C42: loop invariant of the heap against the specification `TopResults` (which has one solution). C43 is false; `similarity_ok_iff`
  says exactly when a query succeeds. C44, C45 direct.
* C57: decision logic of the guard and shape of the result under the contract of the trainer.
* C79: the numbers that are rounded to a float form an interval (`rawMag_of_inside`, `inside_of_rounded`); the search for the shortest digits returns a number inside of it and the first
  position where there is one (`shortestF_spec`; `shortest_best` closes the gap at the smallest normal number, where core uses a smaller interval); parsing is inverted on printed texts
  (`Plain`). Round trips of text and floret files follow from C49 and C51 without their hypothesis on texts.

Other formats:

* C48, C49, C51, C52: round trips. `c48_zero`: files that promise zero components, with words that are not there (a word that is not ended by a space loses its last byte, see C54; a word behind the end of the file is empty). C50, C53 are false as stated: `c50_accepts`, `c50_panics`, `c53_accepts`, `c53_panics` (C62) say exactly which files are
  accepted and which panic (`c50_dims_accepts`, `c50_dims_panics` with the limits of the first line); C60 does so for floret and says which error is returned. C54 is false at the end of the input. C55 compares strict and lossy readers and specifies
  lossy decoding. C61: rows of fastText models. C75: the bytes that are written.
* C80: the accepted files are known exactly (C48 `c48_accepts`, C50, C53, C60); sizes of words and rows are bounded by the size of the file, so the chunks fit the fields of the
  format, and the round trips of C07 to C15 and the memory mapping of C21 apply.
* C81: the accessors are modelled in Model/Accessors.lean; `SameAnswers` lists the queries that do not depend on metadata; the lazy iterator is compared with the list of n-grams of C26.
* C82: the accepted files and those that panic are known exactly (C48, C50, C53, C60) in terms of the bytes at their beginning (`Took`), of lines and of tokens; what is found in the beginning of a file is found in the file, except for the last line or token. Text files without a first line carry no size; a cut is noticed only if it makes the number of components wrong.
* C83: the two iteration orders are parameters of the model of the conversion; membership in the n-gram list and the number of distinct buckets are determined without them, the answers by C32 and C72.
* C84: the conversion never adds rows and n-grams are not longer than their words with markers, so the converted embeddings meet the conditions of C15; memory mapping by C21. A mapped storage is cloned like the storage read from the same data (`SameUse`).
* C85: the reservation of std's `collect` (the lower bound of the size hint after the first item, plus one, at least four) is a model function; false as stated, exact formula proved.
* C86: a copy of the fastText writer whose blocks carry the kind of their error; without the kinds it is the writer of the model. False as stated; the exact points of failure with a read error are given.
* C87: what the readers return meets the conditions of C13 to C15 (`Stable`), by the exact description of the accepted data (C67), so C15 applies; memory mapping by C21.
* C88: `Asks` (after an I/O error there is a continuation, ending where the reader stops, without one) is closed under sequencing; `AsksBut` has an exception for bad data, which a
  minimal continuation cannot be; the exception of floret chunks is described by bytes (`BadFloret`).
* C89: `Moves m` (same result behind any bytes in front, as many as a multiple of m) is closed under sequencing; padding moves by multiples of four; mapping by C21.
* C90: `readOn` is `read` with the position afterwards (`readOn_read`); `ReadsMany` reads from one position to the next; induction on the list with the round trip of C15 at each step.
* C91: Euclidean distance of real vectors (Lemmas/Euclid) as the measure of error; column by column error bounds of sums (`Terms`, as in C76) give a distance (Lemmas/FloatVec);
  normalising turns an error of a vector into one relative to the length of the exact vector.
* C92: the same, along products, differences, sums and the quotient of writer and reader; what is read back (`fasttext_reread`) is shared with C52.
* C93: the compiled branches of both byte orders as functions of `Endian`; swapping the bytes of a row that was loaded in the wrong order gives the row (`swapBytes`), so C21 applies.
* C94: the readers as functions of the word size, compared step by step: `Agrees` (accepted by one, same result by the other) and `Keeps` (accepted by 64 bits, then same result, overflow or panic) are closed under the combinators the readers are made of.
* C95: the bytes a lookup loads are computed as ndarray computes them, from the announced shape and not from the map (`MmapArray.loads`), and compared with the length of the map (`InRegion`). For builds without checks `c95_exact` says exactly for which files lookups stay within the map.
* C96: the functions with arithmetic that depends on the input, as functions of the build; `SameUnlessPanic` is closed under the combinators, so where checks do not panic the builds agree (`c96_partial`). `c96_text`: accepted text and floret files are the same in both, since a wrapped product is noticed when the matrix is made. `c96_lookup`: lookups of constructed vocabularies never overflow.
* C97: `Kinds S r` (all errors of `r` are of the kinds `S`) is closed under the combinators of readers; the readers are taken apart by a tactic. For text and floret the exact conditions are stated with lines (`IsLines`, `LinesHave`, `FloretLineHas`). That I/O errors mean missing data is C88.
* C98: `Restored raw again` is stated with values of floats as real numbers; it follows from `c76_restore` row by row. The iterator over a normalised file is computed (`normalized_rows`), then the round trips of C48 and C49 apply. `mul x 1 = x` in the bit-level model from `rawMag_magUnits`.
* C99: a successful query yields `TopResults` (the specification of C41), which determines the list. `TopResults` is closed under cutting off, permuting the candidates, and leaving out candidates.
* C100: UTF-8 preserves the order of code points, by cases on the lengths of the two encodings. The order of floats is that of C41 (`f32Scaled`, the exact number in units of 2^-149).
* C101: `NeverEmpty ix` (no n-gram maps to an empty list) for each indexer type; an explicit indexer lacks any string longer than all of its n-grams.
* C102: Model/Requests repeats the readers with the sizes of their requests; leaving these out gives the readers of the model (`Erases`). `Pays k c m` (after success the requests and `c` together are at most `k` times the bytes that were passed) is closed under sequencing; a table of `n` entries is paid for by `n` entries that each pay for their place. `AllBut k j m` does the same for any outcome. In word2vec files an entry may take no byte at the end of the data, but only one, since words are distinct.
* C103: Model/Failing repeats the readers for a stream that delivers `k` bytes and then fails. `Follows k m m'` (the same outcome, or an I/O error) is closed under sequencing; readers that use `read_exact` only have it because of `Mono`. `Within` (no result comes from behind the failure) gives the errors for word2vec and fastText; loops over lines cannot end successfully.
* C104: `LazyList next s f l` describes all calls at once; it follows from a relation between states and remaining elements that `next` respects (`LazyList.of_sim`). For n-grams the relation is "`collect` gives these", or "exhausted", which `next` preserves.
* C105: `HMap.eq` is the comparison of the standard library; on maps with distinct keys it is equality of all lookups (`c105_map`). The maps in vocabularies are functions of the lists next to them. For explicit n-grams, numbering by first appearance depends only on which places hold the same number (`o2nFrom_groups`). The claim about bytes uses C87. It also shows that where other claims say that a vocabulary comes back unchanged (model equality), `==` holds (`c105_made`).
* C106: reader by reader from the model of requests of C102 (`bind_ok`, `request_bind_ok`, `replicateM_ok`); the `needs…` functions are the specification. The bound of C102 allows a reader to request less than it uses; this claim does not (added after the mutants W038 and W062).
* C107: from the exact form of accepted data (C67): a part of the pattern is replaced by another of the same length (`read_slot`), and the pattern with the new part is that of the changed value. `ChangedWithin` is the specification of damage.
* C108: Model/Messages has the readers again with whole errors. Two relations are proved reader by reader: `KindOf` (the kinds of errors are those of the other model) and `Tells` (of accepted data that is cut, the field is named). The lists of fields (`Pieces`) are the specification; the descriptions in them are those of the code, also where they are poor (see C109). For mapped storages (`SaysWhereMapped`) the mapped region is no field.
* C109: by evaluation of the readers up to the field, from what is at its position (`u32At`, `u64At`, `sliceAt`).
* C110: as C108, with Model/MessagesCompat. A token, its delimiter and the field behind it are one piece (`Pieces.tokenAnd`), since the end of the data in a token is noticed later. The first line of a word2vec file is not in the list, as numbers that are cut are other numbers.
* C111: one specification per format of which error belongs to which data (`TableMessage`, `ShapeLineMessage`, `W2vMessage`, `FloretHeadMessage`, `FloretParamMessage`, `FloretTableMessage`, `FtHead.complaint`, `FtEntryMessage`), built from `IsLines`, `TokensOf` and `Decimal`; for text, word2vec and floret the theorems are equivalences, so nothing else can be said.
* C112: the writers again with the error of each step (Model/MessagesWrite); without the errors they are the writers of the model. The specification `OutPieces` gives the fields of each format with their lengths in order; `WritesAs` says that the error is that of the field that contains the first byte that is not accepted. False as stated: `c112_false`, with the exact failures in `c112_fasttext_partial` and `c112_position_*`.
* C113: the conversions and the quantization again with whole errors (Model/MessagesConvert). The largest number of bits is specified by its property (k = 0 or 2^k ≤ rows, and no larger k ≤ 8 has it), not by a logarithm. That nothing else in these functions returns an error is shown for the n-gram iterator, the explicit indexer, the selection of rows of each storage and the constructors.
* C114: histories are an inductive relation between the embeddings at the start and now (Props/History), one constructor per operation. Usable (`Sound`) is a property of the values alone: a vocabulary made by its constructor, a storage that is rectangular or the mapped copy of one, agreeing sizes. Each operation preserves it (induction over the history), each composes the theorems about one operation (C07, C27, C32, C57, C80). Quantization uses the contract of trainers from C57. HistoryStart shows that the readers of other formats and `new` return usable embeddings. That the conditions on n-gram lengths and buckets are needed is C25 and C29.
* C115: false. The reader divides the number of components by the number of lines, so with few lines an incomplete last line is not noticed: of `a 1 2`, `ab 3 4` cut behind `ab` the reader returns two words with one component each, and cut behind `a` it panics, because the word `a` is there twice; an empty file makes it panic as well (C54). It is true if more lines are left than there are components in a line (`c115_cut_partial`): a last line with fewer components then makes the numbers indivisible. Lemmas/LossyPrefix says what the lossy readers decode of the beginning of data: the same, and perhaps one `U+FFFD`. `c115_cut_norms_partial` and `c115_line_end_norms` say the same of the normalising readers.
* C116: the two storages need not have the same type; they are related by `SameVectors`, which speaks of positions in the two word lists only. An n-gram index is an offset behind the words, so it moves with the number of words and meets the same row. For conversions the known words are those of C32 and the others those of C72. A query over more words has the same candidates if the others are skipped, and the ranking of candidates is unique (C41, C99).
* C117: bit-exact single precision (`Ieee`). `Scaled k x y` says that both numbers are finite, have the same sign bit and values that differ by `2^k`. Rounding commutes with powers of two where the result is normal (`rawMag_scale`); sums of floats are multiples of the smallest unit, so they need no such condition; squares do, hence the bound 2^-63; roots of nonzero numbers are always normal; quotients of numbers that are scaled alike have the same exact value. A computed length is zero only for the zero vector (`zero_of_dot`), so the branch of `l2_normalize` for length zero also returns the same. `c117_small` shows that the bound is needed: the vector (2^-100) is left as it is, (1) too. Products that are scaled down are the same statement with the vectors exchanged.
* C118: bit-exact single precision (`Ieee`). `RowsOfWords` says that lookups of the words of the vocabulary give the rows of the matrix that `similarity_` multiplies with the query; `c118_simple` and `c118_subword` derive it from the constructors. Products are commutative bit by bit (NaN is one value in the model, see section 2), and the order of summation of the inner product depends on the positions only. Opposite sums have opposite values except for the sign of zero, hence "the opposite number". A sum in the model of the inner product starts with +0, so the sign of a zero summand is lost (`notNegZero_rel`). `c118_exchange` is over ℝ; `c118_exchange_rounded` is a witness that rounding matters.
* C119: `SameTokens` relates two lines by the specification of columns (`TokensOf`), `crlf` replaces line feeds in a file. For text without dimensions the claim holds: `c119_text` (other white space) and `c119_crlf_text` (line ends, for all bytes). False for the first lines of the other two formats: `c119_crlf_dims` (every accepted file is rejected with carriage returns), `c119_spaces_dims` (a second space is always rejected), `c119_crlf_floret` (every accepted file is read with another marker for the end of words), witnesses in `c119_false`. `c119_text_dims_partial` and `c119_floret_partial` are the claim for the lines after an unchanged first line.
* C120: Model/Pieces models a stream that answers each call of `read` as it likes, std's `BufReader`, `read_exact` and `read_until` as relations, and programs (`Prog`) as trees of calls. `c120_runs`: every program ends and has the outcome on bytes, by induction on programs; the loops by induction on the number of bytes left and on the time to the next answer that is not an interruption. The readers of the other model files are shown to be programs by decomposing them (`prog_tac`); `Indifferent` says that there is a program for the reader and that every program for it behaves on all streams as the reader on bytes. `c120_chunks`, `c120_storages`, `c120_binary`, `c120_text`, `c120_finalfusion` with `c120_programs`; `c120_forever` shows why endless interruptions are excluded.
* C121: Model/Sinks models a sink that answers each call of `write` as it likes, `write_all`, and std's `BufWriter` (`write_all`, `flush_buf`, and `stream_position`, which flushes) as relations, and runs the steps of the writers of Model/MessagesWrite against it. Without a buffer the claim holds for all formats: `c121_direct` (`Arrives`: outcome as for a sink that fails after some number of bytes, so C19, C75, C86 and C112 apply; exactly one outcome; success for sinks that work). False with a `BufWriter` (`c121_false`); `c121_flush_partial` is the claim after a later successful flush, with a bound for what is missing before; `c121_outcome` gives the possible outcomes. `c121_detected`: without norms the loss shows when the file is read; `c121_norms`: with norms it never does.
* C122: from the exact conditions of C50 and C60. `c122_text`, `c122_text_normalized` are the positive part; `c122_refused`, `c122_text_dims`, `c122_floret` the refusals that hold; `c122_dims_partial` and `c122_common_panics` what holds for different numbers of dimensions and for common words; `c122_outcomes` gives the exact outcome for two accepted files. For the formats with a first line, `Rd.Stable` says that the first line is read in the same way whatever follows.
* C123: `c123_queries` says that the results of queries depend on the words and their vectors only (candidates in another order have the same best results, because the ranking is total, C41); with C116 for lookups and C50 for the files this gives `c123_text` and `c123_text_dims`, with C48 `c123_word2vec`. `c123_floret_partial`: the rows of a floret file are in the order of the lines.
* C124: with the exact conditions of success of C43 and the specification `TopResults` of C41, which has only one solution, the best of all candidates are the best of the best of the parts (`TopResults.merge`). `c124_text` gives the parts from C122.
* C125: `c125_magic_fasttext`, `c125_magic_finalfusion`, `c125_number` and `c125_first_line` say what the readers refuse by the beginning of the data; `c125_finalfusion_partial`, `c125_fasttext_partial`, `c125_dims_partial`, `c125_floret_partial` and `c125_text_partial` apply them to written files, for the pairs of formats where the property holds.
* C126: `c126_first_line` compares the two readers on all data behind a line that meets the specification `DimsLine` (with the decimal numbers of C54); `c126_norms` is about the readers that normalise, `c126_written` about the writers.
* C127: `c127_raw` and `c127_normalized` give one result for all three formats, in single precision with the texts of C79; `c127_chain` is about any list of further conversions, also through the finalfusion format (C15); `c127_conditions` has witnesses that the conditions on NaNs, words and emptiness are needed.

## 3. Disagreements between code and properties

Theorem names in brackets.

Finalfusion files:

* C08, C09: custom word-boundary markers of bucket, fastText and explicit vocabularies are not stored [`c08_markers_lost`, `c09_markers_lost`].
* C10: the floret chunk stores no words [`c10_words_lost`].
* C11: a matrix with 2^32 or more columns is written with a truncated column count [`c11_wide_false`]. The same holds for the other
  `as u32` casts of writers (lengths of strings, n-gram lengths, sizes of quantizers); these are hypotheses of the round trips.
* C15: embeddings without norms followed by bytes that look like a norms chunk are read back with these as norms, since the list of chunks in the header is not
  consulted. More generally all recorded chunk lengths, and all identifiers of the header after the first, are ignored (C67).
* C18: every error in the norms chunk means "no norms", so a file cut inside the norms is accepted [`c18_norms_false`]; so is one cut inside
  the padding of an empty matrix [`c18_empty_false`], because padding is skipped by seeking.
* C37: `read_embeddings` compares neither the size of the vocabulary with the number of rows nor the number of norms with the number of words [`c37_false`].
  Codes that are not smaller than the number of centroids are accepted as well; the lookup panics (C74).
* C56: repeated words or n-grams, bucket exponents of 64 and more, `quantized_len = 0`, empty quantizers, floret chunks with 0 buckets and lengths
  beyond the address space panic instead of giving an error [`c56_false`, `c56_vocab_false`, `c56_storage_false`]; C64 has the complete list.
* C59: memory mapping does not check the length of the file: a lookup silently returns zeros for bytes missing on the last page and crashes behind
  it [`c59_false`, `c59_crash_false`].
* C88: the wrong number of hash functions in a floret chunk is reported as an I/O error without a source of that kind, not as a format error [`c88_false`].
* C89: padding is computed from absolute positions, by the writers and by the readers, so data that is moved within a file (for instance embedded in another
  file) by anything but a multiple of four bytes is read with wrong numbers and no error [`c89_false`].
* C90: `read_embeddings` finds out whether there are norms by trying to read them (src/embeddings.rs:539) and does not go back if there are none. In a stream
  with several embeddings, the reading after embeddings without norms starts four bytes too late and is refused with a format error. `read_word2vec_binary`
  leaves the last line feed unread, and a second word2vec file behind it is refused. Moving the stream with `write_embeddings_len`, or skipping the line feed, helps.
* C102: memory is requested for announced numbers of elements before the elements are read. Short damaged files therefore cost up to 2^63 bytes before they are rejected (where the
  request fails, the process is aborted). The norms do this even in files that are accepted: a norms chunk that announces 2^40 norms and ends there means "no norms", after a request
  of 2^42 bytes [`c102_false`].
* C103: `NdNorms::read_chunk(read).ok()` (src/embeddings.rs:539, :502) treats every error as absence of norms, also an I/O error: reading a file with norms from a stream that fails within
  the norms gives embeddings without norms and no error [`c103_false`].
* C109: `check_quantizer_invariants` (src/chunks/storage/quantized.rs:34-40) has the two lengths of its message in each other's place, so the message is always wrong [`c109_lengths_false`];
  the mapped `StorageWrap` accepts quantized matrices but says that it expects `NdArray` [`c109_mmap_storage_false`]; the number of centroids is called "number of subquantizers" if it
  cannot be read [`c109_false`].

Vocabularies:

* C28: exponent 64 makes `upper_bound` overflow [`c28_upper_bound_64_false`]. C29: fastText indexers with 0 buckets are accepted and panic on the first n-gram
  [`c29_fasttext_zero_buckets_false`].
* C25, C32: `min_n = 0` or `max_n < min_n` are accepted by constructors and readers; each lookup of an unknown word panics [`c25_bad_range`], and so does the conversion
  to explicit n-grams if there are words [`c32_bad_range`]. An n-gram with several indices cannot be converted [`c32_multiple`].
* C27: size hints of the n-gram iterators are no bounds [`c27_lower_bound_false`, `c27_indices_upper_bound_false`]; exact only in the cases of C69. The product in the hint overflows (panic with overflow checks) for
  `max_n` near 2^64 [`c69_overflow`].
* C85: since the hint is used as a lower bound, `ngram_indices` reserves memory for far more elements than there are n-grams; a file with a large `max_n` makes it
  ask for terabytes [`c85_bound_false`].
* C33: the conversion to explicit n-grams drops custom markers (and metadata); vectors of unknown words change [`c33_markers_false`].

Embeddings and similarity:

* C34 (dimension 1): ndarray sums a one-column matrix in another order than `embedding_into` adds rows; the results can differ in the last bit (hypothesis `hs`).
* C43: limit 0, batch size 0, no words with the default batch size, very large limits and NaN products panic [`c43_limit_zero`, `c43_batch_zero`, `c43_no_words`, `c43_huge_limit`].
* C76: squares overflow and underflow: vectors longer than about 2^64 become the zero vector with an infinite norm, vectors shorter than about 2^-75 are stored as they are with norm
  zero [`c76_false`].
* C77: the documentation promises a Euclidean similarity in [0, 1]; for two equal vectors (1, 4), normalised by the reader, the computed cosine similarity is 1 + 2^-23, and distance,
  Euclidean similarity (and angular similarity, if `acos` is NaN above one) are NaN [`c77_false`]. Exactly the similarities above one do this [`c77_nan`].
* C57: `normalize` divides zero rows by 0. Zero rows pass the guard with 0 bits.

Other formats:

* C50: text tables with ragged rows whose total number of components fits are accepted [`c50_ragged_false`]; empty tables, repeated words and huge promised shapes panic
  [`c50_panic_false`].
* C51: floret text drops the words (as the format does). `min_n`, `max_n` and the number of hashes are cut to 32 bits when read (C60).
* C52, C53, C62: the fastText reader panics before it checks the shape if rows are missing [`c53_shape_false`], and on repeated words or 2^31 buckets before the quantized
  flag is checked [`c53_quantized_false`]; any version up to 12 is accepted; the flag is only rejected if it is exactly 1; `dims` of the configuration is not compared with the
  matrix; custom markers are not stored.
* C54: at the end of the input without a delimiter the last byte of a token is dropped [`c54_eof_false`].
* C86: a failure to write the entry type of a word is reported as a read error, "Cannot read entry type" [`c86_false`].
* C110, C111: in a fastText or word2vec file that is cut within a word, the missing frequency, the missing vector or invalid UTF-8 is reported, not the missing end of the word; the magic is "Cannot fastText read magic" (src/compat/fasttext/io.rs:63); the message about the version says that 12 is expected, but any version up to 12 is accepted.
* C112: in fastText files the entry type of a word has a read error, and the type of the model has the description of the loss function (src/compat/fasttext/io.rs:399); of the two calls that ask for the position of the sink, one has a read error: the second for matrices and norms (src/chunks/storage/array.rs:225-227, src/chunks/norms.rs:116-118), the first for quantized matrices (src/chunks/storage/quantized.rs:173-175). The only one of a simple vocabulary is a read error as well (src/chunks/vocab/simple.rs:105-107). The number of n-grams is called "ngram length" (src/chunks/vocab/subword.rs:567-569) and the number of centroids "number of subquantizers" (src/chunks/storage/quantized.rs:204).
* C115: of a text file without a first line that is cut off, the reader can return wrong vectors or panic instead of reporting an error, since the number of components per word is the quotient of two totals (src/compat/text.rs:262-263).
* C119: the first line of a text file with dimensions or of a floret file must end with a line feed alone and have single spaces. With carriage returns (a file saved on Windows) the former is rejected, and the latter is read without an error, with the carriage return as a part of the marker for the end of words (src/compat/floret/io.rs:29-36, src/util.rs:101-116): all n-grams at the ends of words get other buckets. The lines after the first one may end in any way.
* C121: no writer flushes. With a `BufWriter` that the caller drops, the end of the file can be lost although `Ok` was returned (src/embeddings.rs:555-586). The two questions for the position after the identifier of the norms flush the buffer (src/chunks/norms.rs:111-119), so of a file with norms everything before the norms has arrived; the rest of the norms may be missing, and such a file is read without an error and without norms (C18). Callers must flush.
* C122: two text files with a common word panic when concatenated (the `assert_eq!` of `SimpleVocab::new`), and files with different numbers of dimensions are accepted together when the total number of components is a multiple of the number of words; vectors are then mixed up (src/compat/text.rs:242-266; the cause is that of C50).
* C123: the number at the beginning of a line of a floret file is skipped without a look (src/compat/floret/io.rs:72-73). A file whose lines are in another order, or with wrong numbers, is accepted, and the buckets get the vectors of other buckets.
* C125: the text format has no mark of its own. `c125_not_all`: the file `1 1`, `a 1234` is a word2vec file, a text file with dimensions and a text file, and the readers of all three accept it, with different contents (the four digits are one component for word2vec; the first line is a word for text). `c125_not_text`: the readers of text files accept a finalfusion file without spaces in it (the type number 10 of the array is a line feed; the two lines are two words without components) and a floret file whose markers are numbers. Besides, a text file whose first word begins with `FiFu` or is a number is not refused by the first test of the other readers.
* C127: a NaN keeps its bits in word2vec files and becomes the quiet NaN in text files; a word with a tabulator inside is exchanged by word2vec files but the text file written for it cannot be read; embeddings without words are exchanged by word2vec files but reading the (empty) text file panics (as in C50). None of the three is refused when writing.
* C75: writing fastText fails after the head has been written if there are 2^32 words or more.

Other machines:

* C93: on a big-endian machine `StorageWrap::write_chunk`, `chunk_identifier` and `chunk_len` of a mapped dense matrix are `unimplemented!()` (src/chunks/storage/wrappers.rs), although reading such a matrix works; the branches are not conditioned on the feature `memmap`, so the crate does not compile on big-endian machines without it.
* C94: `read_len as usize` and the like in src/chunks/vocab/subword.rs:391, 544, 545 and src/chunks/metadata.rs:60 truncate on 32-bit machines, where the other chunk types report an overflow (`try_into`). A file that announces 2^32 + 1 words is read there as a file with one word. Negation: `c94_false`.

Builds without overflow checks (the default of `cargo build --release`):

* C95: `shape.size() * size_of::<f32>()` (src/chunks/storage/array.rs:142) wraps around. A file of 36 bytes that announces 2^62 + 1 rows of one column is mapped with a map of four bytes and the announced shape; looking up row 1 through the safe API reads behind the map. Memory-unsafe; a `checked_mul` would repair it. Negation: `c95_false`; exact condition: `c95_exact`. Quantized storages compute the number of rows from the map and are not affected (`c95_quantized`).
* C96: `2u64.pow(64)` (src/subword.rs:122) is 0, so that a bucketed vocabulary with exponent 64 is accepted although its size does not fit; `vocab_len` is then the number of words, and unknown words get indices far outside the storage. A quantized matrix that announces too many rows is mapped with fewer. Negation: `c96_false`.

## 4. Axioms of the claimed theorems

Output of `#print axioms`, grouped.

No axioms (4): `c57_train_error`, `c57_embeddings`, `Ieee.ieee_infinities`, `c81_index`.

Only `propext` (23): `c109_false`, `c11_wide_false`, `c112_position_simple`, `c112_position_array`, `c112_position_quantized`,
`c112_position_norms`, `Ieee.c118_exchange_rounded`, `c124_word`, `c27_lower_bound_false`, `c29_fasttext_accepts`,
`c31_ngram_indices`, `c34_wrong_length`, `c39_unnormalized`, `c41_unknown`, `c57_view_array`, `c58_storage`, `c59_false`,
`c59_crash_false`, `c81_set_metadata`, `c81_metadata_mut`, `c81_wrapped`, `c93_storage`, `c95_false`.

Only `Quot.sound`, `propext` (97): `c02_magic`, `c02_version`, `c02_array_type`, `c02_norms_type`, `c02_quantized_type`,
`c101_infallible`, `c104_iter`, `c104_iter_with_norms`, `c104_used_up`, `c109_types_partial`, `c109_quantized_types_partial`,
`c109_map_partial`, `c112_false`, `c113_text`, `c114_new`, `Pieces.c120_forever`, `Sinks.c121_flush_partial`,
`Sinks.c121_outcome`, `c26_refused`, `c28_upper_bound_64_false`, `c28_upper_bound_64_wrapping`, `c29_fasttext_partial`,
`c29_fasttext_zero_buckets_false`, `c29_floret`, `c29_floret_accepts`, `c32_multiple`, `c33_markers_false`, `c34_into`, `c36_new`,
`c39_with_norm`, `c39_with_norm_ok`, `c39_iter`, `c40_iter`, `c40_total`, `c43_huge_limit`, `c44_word`, `c44_masked`,
`c44_analogy`, `Embeddings.c44_plain_analogy`, `c45_error`, `c47_array`, `c47_mmap_array`, `c47_quantized`, `c47_mmap_quantized`,
`c47_wrap`, `c47_view_wrap`, `c47_clone_array`, `c47_clone_mmap_array`, `c47_clone_quantized`, `c47_clone_mmap_quantized`,
`c47_clone_wrap`, `c47_reconstruct`, `c47_reconstruct_total`, `c49_separators`, `c56_header`, `c57_train_panic`, `c57_view_mmap`,
`c57_view_wrap`, `c58_into`, `c58_vocab`, `c59_partial`, `c56_mmap_array`, `c65_header`, `c65_simple`, `c65_bucket`,
`c65_fasttext`, `c65_floret`, `c65_array`, `c65_norms`, `c65_metadata`, `c65_quantized`, `c65_storage_chunk`, `c65_file`,
`c66_fasttext`, `c66_floret`, `c66_blocks`, `c71_array`, `c71_quantized`, `IsSumVector.unique`, `c75_text`, `Shown.unique`,
`c81_parts`, `c81_vocab`, `Embeddings.c81_accessors`, `c83_bytes_false`, `c86_erase`, `c89_storage_partial`, `c93_wrap`,
`c93_panic`, `c93_little`, `c93_view`, `c95_partial`, `c95_aligned`, `c95_quantized`, `c95_rows`, `c95_quantized_rows`,
`c98_plain`.

Only `Classical.choice`, `Quot.sound`, `propext` (552): `c01_header`, `c01_header_id_refused`, `c02_chunk_types`, `c03_array`,
`c03_norms`, `c03_quantized`, `c04_simple`, `c04_bucket`, `c04_fasttext`, `c04_explicit`, `c04_floret`, `c05_array`, `c05_norms`,
`c05_quantized`, `c05_metadata`, `c05_mmap_array`, `c06_write_len`, `c06_wrap`, `c07_simple`, `c08_bucket_partial`,
`c08_fasttext_partial`, `c08_bucket_exact_partial`, `c08_fasttext_exact_partial`, `c08_markers_lost`, `c09_explicit_partial`,
`c09_explicit_exact_partial`, `c09_markers_lost`, `c10_floret_partial`, `c10_floret_exact_partial`, `c10_words_lost`,
`c100_code_points`, `c100_compare`, `c100_total`, `c100_results`, `MRd.c102_false`, `MRd.c102_chunks_partial`,
`MRd.c102_formats_partial`, `MRd.c102_files_partial`, `Failing.c103_false`, `Failing.c103_word2vec_raw`, `Failing.c103_word2vec`,
`Failing.c103_fasttext`, `Failing.c103_text_raw`, `Failing.c103_text`, `Failing.c103_text_dims_raw`, `Failing.c103_text_dims`,
`Failing.c103_floret`, `Failing.c103_chunks`, `Failing.c103_finalfusion_partial`, `c104_ngrams`, `c104_indices`, `c105_map`,
`c105_simple`, `c105_bucket`, `c105_fasttext`, `c105_floret`, `c105_explicit`, `c105_explicit_new`, `c105_read_made`, `c105_made`,
`c105_equivalence`, `c105_same_answers`, `c105_bytes`, `MRd.c106_chunks`, `MRd.c106_formats`, `MRd.c106_files`, `c107_matrix`,
`c107_wrapped_matrix`, `c107_codes`, `c107_wrapped_codes`, `c107_norms`, `c107_word`, `c107_lookup`, `c107_length`, `c108_header`,
`c108_metadata`, `c108_simple`, `c108_bucket`, `c108_fasttext`, `c108_explicit`, `c108_floret`, `c108_vocab`, `c108_array`,
`c108_quantized`, `c108_norms`, `c108_storage`, `c108_storage_view`, `c108_file`, `c108_mmap_array`, `c108_mmap_quantized`,
`c108_mmap_storage`, `c108_mmap_storage_view`, `c108_mmap_file`, `c109_lengths_false`, `c109_mmap_storage_false`,
`c109_identifiers_partial`, `c109_display_partial`, `c109_choices_partial`, `c109_header_partial`, `c109_empty_partial`,
`c109_hashes_partial`, `c109_text_partial`, `c109_toml_partial`, `c11_array`, `c110_fasttext`, `c110_word2vec`, `c111_text`,
`c111_text_dims`, `c111_number`, `c111_word2vec`, `c111_floret`, `c111_fasttext_head`, `FtHead.complaint_none`,
`c111_fasttext_entry`, `c111_fasttext_quantized`, `c111_fasttext_end`, `c112_header`, `c112_metadata`, `c112_vocab`,
`c112_storage_partial`, `c112_view_partial`, `c112_norms_partial`, `c112_file_partial`, `c112_view_file_partial`, `c112_word2vec`,
`c112_text`, `c112_text_dims`, `c112_floret`, `c112_fasttext_partial`, `c113_try`, `c113_vocab`, `c113_quantize`, `c114_history`,
`c114_vectors`, `c114_all_words`, `c114_lookups`, `c114_possible`, `c114_word2vec`, `c114_text`, `c114_fasttext`, `c114_floret`,
`c115_false`, `c115_cut_partial`, `c115_line_end`, `c115_cut_norms_partial`, `c115_line_end_norms`, `c116_simple`, `c116_subword`,
`c116_explicit`, `c116_similarity`, `Ieee.c117_normalize`, `Ieee.c117_query`, `Ieee.c117_readers`, `Ieee.c117_oov`,
`Ieee.c117_small`, `c117_exact`, `Ieee.c118_symmetric`, `Ieee.c118_mutual`, `Ieee.c118_zeros`, `Ieee.c118_trivial`,
`Ieee.c118_opposite`, `Ieee.c118_simple`, `Ieee.c118_subword`, `c118_exchange`, `c119_text`, `c119_crlf_text`,
`c119_text_dims_partial`, `c119_floret_partial`, `c119_crlf_dims`, `c119_spaces_dims`, `c119_crlf_floret`, `c119_false`,
`c12_quantized`, `Pieces.c120_runs`, `Pieces.c120_chunks`, `Pieces.c120_storages`, `Pieces.c120_binary`, `Pieces.c120_text`,
`Pieces.c120_finalfusion`, `Pieces.c120_programs`, `Sinks.c121_direct`, `Sinks.c121_detected`, `Sinks.c121_norms`,
`Sinks.c121_false`, `c122_text`, `c122_text_normalized`, `c122_refused`, `c122_text_dims`, `c122_floret`, `c122_dims_partial`,
`c122_common_panics`, `c122_outcomes`, `c122_false`, `c123_text`, `c123_text_dims`, `c123_word2vec`, `c123_queries`,
`c123_floret_partial`, `c123_false`, `c124_outcome`, `c124_results`, `c124_text`, `c125_magic_fasttext`, `c125_magic_finalfusion`,
`c125_number`, `c125_first_line`, `c125_finalfusion_partial`, `c125_fasttext_partial`, `c125_dims_partial`, `c125_floret_partial`,
`c125_text_partial`, `c125_not_all`, `c125_not_text`, `c126_first_line`, `c126_norms`, `c126_written`, `Ieee.c127_raw`,
`Ieee.c127_normalized`, `Ieee.c127_chain`, `Ieee.c127_conditions`, `c13_norms`, `c14_metadata`, `c15_round_trip`, `c15_wrap`,
`c16_vocab`, `c16_storage`, `c16_storage_view`, `c17_truncated`, `c17_any`, `c18_partial`, `c18_norms_false`, `c18_empty_false`,
`c19_failing_writer`, `c20_read_metadata`, `c21_array`, `c21_quantized`, `c21_wrap`, `c21_embeddings`, `c22_simple`,
`c22_subword`, `c23_simple`, `c23_subword`, `c24_simple`, `c24_bucket`, `c24_fasttext`, `c24_floret`, `c24_explicit`,
`c25_simple`, `c25_bucket`, `c25_fasttext`, `c25_floret`, `c25_explicit`, `c25_bad_range`, `c26_ngrams`, `c26_multiplicity`,
`c26_slice`, `c27_ngrams_upper_bound_partial`, `c27_indices_upper_bound_partial`, `c27_indices_upper_bound_false`,
`c27_ngrams_exact`, `c27_indices_state`, `c27_indices_exact`, `c28_index`, `c28_accepts`, `c28_eq`, `c28_upper_bound_partial`,
`c30_accepts`, `c30_renumbering`, `c31_listing`, `c32_known`, `c32_wrap`, `c32_bad_range`, `c33_unknown_partial`, `c35_batch`,
`c35_batch_into`, `c35_fails`, `c36_no_panic`, `c36_wrap`, `c37_false`, `c37_partial`, `c38_norm`, `c38_zero`, `c38_unit`,
`c38_restore`, `c38_array`, `c38_oov`, `c38_readers`, `c38_fasttext`, `c41_word`, `c41_embedding`, `c45_vector`,
`TopResults.unique`, `queryOk_of_new`, `c41_compare`, `c42`, `c43_partial`, `similarity_ok_iff`, `c43_limit_zero`,
`c43_batch_zero`, `c43_no_words`, `c44_kept`, `Embeddings.c45_plain_vector`, `c46_range`, `c46_distance`, `c46_angular`,
`c46_angle`, `c46_euclidean`, `c46_euclidean_ends`, `c46_similarity`, `c46_order`, `c48_roundtrip`, `c48_words`, `c48_normalized`,
`c48_trim`, `c48_accepts`, `c48_panics`, `c48_zero`, `c48_zero_panics`, `c48_zero_made_up`, `c49_text`, `c49_text_dims`,
`c49_words`, `c50_partial`, `c50_accepts`, `c50_panics`, `c50_dims_accepts`, `c50_dims_panics`, `c50_ragged_false`,
`c50_panic_false`, `c51_roundtrip`, `c52_roundtrip`, `c52_config`, `c53_unsupported`, `c53_entry`, `c53_quantized_partial`,
`c53_shape_partial`, `c53_shape_false`, `c53_quantized_false`, `c53_no_ngrams_panics`, `c54_partial`, `c54_token`, `c54_decode`,
`c54_eof`, `c54_eof_false`, `c54_number`, `c54_number_eof`, `c54_decimal`, `c55_decode`, `c55_text`, `c55_text_dims`,
`c55_word2vec`, `c55_fasttext`, `c55_lossy`, `c55_text_dims_where`, `c55_word2vec_where`, `c55_fasttext_where`, `c56_partial`,
`c56_false`, `c56_vocab_false`, `c56_storage_false`, `c57_bound`, `c57_guard`, `c57_ok`, `c57_consistent`, `c60_accepts`,
`c60_panics`, `c60_first_line`, `c60_errors`, `c61_rows`, `c53_accepts`, `c53_panics`, `c63_seen`, `c63_error`, `c63_lossless`,
`c56_metadata`, `c56_norms`, `c56_array`, `c56_quantized`, `c56_mmap_quantized`, `c56_simple`, `c56_bucket`, `c56_fasttext`,
`c56_explicit`, `c56_floret`, `c56_vocab`, `c56_storage`, `c65_explicit`, `c65_vocab_chunk`, `c66_bucket`, `c67_header`,
`c67_simple`, `c67_bucket`, `c67_fasttext`, `c67_explicit`, `c67_floret`, `c67_array`, `c67_quantized`, `c67_norms`,
`c67_metadata`, `c67_vocab`, `c67_storage`, `c67_read_metadata`, `c67_read`, `c67_empty_header`, `c67_floret_hashes`,
`c68_bucket`, `c68_fasttext`, `c68_explicit`, `c68_floret`, `c69_count`, `c69_indices`, `c69_overflow`, `c70_norms`,
`c70_no_norms`, `c71_write`, `c72_unknown`, `c73_simple`, `c73_known`, `c73_bucket`, `c73_fasttext`, `c73_floret`, `c73_explicit`,
`c73_explicit_indices`, `c74_row`, `c75_word2vec`, `c75_text_dims`, `c75_floret`, `c75_fasttext`, `Ieee.c76_norm`,
`Ieee.c76_unit`, `Ieee.c76_finite`, `Ieee.c76_restore`, `Ieee.c76_zero`, `Ieee.c76_readers`, `Ieee.c76_oov`, `Ieee.c76_false`,
`Ieee.ieee_add`, `Ieee.ieee_sub`, `Ieee.ieee_mul`, `Ieee.ieee_div`, `Ieee.ieee_sqrt`, `Ieee.ieee_nan`, `Ieee.ieee_infinite`,
`Ieee.ieee_sign`, `Ieee.ieee_constants`, `Ieee.c77_false`, `Ieee.c77_range_partial`, `Ieee.c77_order`, `Ieee.c77_distance`,
`Ieee.c77_similarity`, `Ieee.c77_nan`, `Ieee.c77_angular`, `Ieee.c77_pi`, `Ieee.c77_angle`, `Ieee.c78_word`, `Ieee.c78_error`,
`Ieee.c78_finite`, `Ieee.c78_range`, `Ieee.c79_accepts`, `Ieee.c79_words`, `Ieee.c79_rounded`, `Ieee.c79_printed`,
`Ieee.c79_special`, `Ieee.c79_roundtrip`, `Ieee.c79_text`, `Ieee.c79_text_dims`, `Ieee.c79_floret`, `Ieee.c79_text_all`,
`Ieee.c79_text_dims_all`, `Ieee.c79_floret_all`, `c80_word2vec`, `c80_text`, `c80_fasttext`, `c80_floret`, `c80_wide_false`,
`c81_lazy`, `c81_written`, `c81_char_len`, `c82_fasttext`, `c82_word2vec`, `c82_text_dims`, `c82_text_dims_normalized`,
`c82_floret`, `c82_unnoticed`, `c83_ngrams`, `c83_order`, `c83_wrap`, `c84_file`, `c84_mapped`, `c85_bound_false`,
`c85_capacity_partial`, `c86_false`, `c86_partial`, `c87_vocab`, `c87_storage`, `c87_norms`, `c87_rewrite`, `c87_mapped`,
`c88_partial`, `c88_floret_partial`, `c88_read_partial`, `c88_false`, `c89_partial`, `c89_head_partial`, `c89_mmap_partial`,
`c89_false`, `c90_partial`, `c90_seek_partial`, `c90_stop`, `c90_false`, `c90_word2vec_partial`, `Ieee.c91_direction`,
`Ieee.c91_normalize`, `Ieee.c91_unknown`, `Ieee.c91_fasttext`, `Ieee.c91_ranking`, `Ieee.c91_embedding`, `Ieee.c91_word`,
`Ieee.c91_analogy`, `Ieee.c91_quantized`, `Ieee.c92_roundtrip`, `c93_read`, `c94_64`, `c94_agrees`, `c94_overflow`, `c94_file`,
`c94_false`, `c94_partial`, `c95_exact`, `c96_partial`, `c96_vocab_len`, `c96_lookup`, `c96_text`, `c96_false`, `c97_finalfusion`,
`c97_unknown`, `c97_word2vec`, `c97_fasttext`, `c97_floret`, `c97_text`, `c97_text_dims`, `Ieee.c98_word2vec`, `Ieee.c98_text`,
`Ieee.c98_text_dims`, `c98_plain_real`, `Ieee.c98_plain_f32`, `Ieee.c98_inexact`, `Ieee.c98_lost`, `c99_limit`, `c99_skip`,
`c99_mask`, `c99_order`.
