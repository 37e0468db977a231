{"id": "C01", "title": "File header round trip", "statement": "Writing a finalfusion header for any list of identifiers of data chunks (the header identifier itself is refused when reading) and reading it back at the same place yields the same list and leaves the reader exactly after the header, whatever bytes precede or follow.", "quantifier": "for all lists of chunk identifiers (fewer than 2^32), all preceding bytes, all following bytes", "why_tests_cant": "The header has a variable number of identifiers; tests only try a couple of fixed lists.", "anchors": ["src/chunks/io.rs: Header, Header::write_chunk, Header::read_chunk, ChunkIdentifier::try_from"]}
{"id": "C02", "title": "Wrong magic, version or chunk type is always refused", "statement": "A header whose first four bytes are not the magic, or whose version is not the supported one, is refused with a format error; a typed chunk reader given a chunk with any other identifier, returns a format error (an unknown-identifier error if no chunk type has that identifier), and one given numbers with another type identifier returns a format error (a quantized chunk that also claims zero sub-quantizers panics instead); data is never returned.", "quantifier": "for all byte streams and positions, for all typed chunk readers", "why_tests_cant": "The set of malformed inputs is infinite; tests contain no malformed files of this kind.", "anchors": ["src/chunks/io.rs: Header::read_chunk, ChunkIdentifier::ensure_chunk_type, TypeId::ensure_data_type", "src/chunks/**: read_chunk"]}
{"id": "C03", "title": "Float data is 4-byte aligned in the file", "statement": "Whatever the stream position at which an array, quantized-array or norms chunk is written, between 1 and 4 zero padding bytes are inserted so that the float data begins at a stream position that is a multiple of 4.", "quantifier": "for all stream offsets and all chunk contents", "why_tests_cant": "Alignment depends on the offset left by arbitrary-length vocabularies; tests write at one or two offsets.", "anchors": ["src/util.rs: padding", "src/chunks/storage/array.rs: write_ndarray_chunk", "src/chunks/storage/quantized.rs: write_chunk", "src/chunks/norms.rs: write_chunk"]}
{"id": "C04", "title": "chunk_len of vocabularies equals the bytes written", "statement": "For every vocabulary type, chunk_len at any offset is exactly the number of bytes that write_chunk emits at that offset, and the length recorded inside the chunk is exactly the number of bytes after that field.", "quantifier": "for all vocabularies of every type and all offsets", "why_tests_cant": "Depends on the byte lengths of arbitrary words; tests check one vocabulary of each type.", "anchors": ["src/chunks/vocab/simple.rs: chunk_len, write_chunk", "src/chunks/vocab/subword.rs: chunk_len_, write_bucketed_chunk, write_ngram_chunk, floret write_chunk"]}
{"id": "C05", "title": "chunk_len of storage, norms and metadata equals the bytes written", "statement": "For arrays, quantized arrays (with or without projection and norms), norms and metadata chunks, chunk_len at any offset equals the number of bytes write_chunk emits at that offset, and the length recorded inside the chunk equals the number of bytes after that field.", "quantifier": "for all matrices/quantizers/norms/metadata of all shapes and all offsets", "why_tests_cant": "Shapes and offsets are unbounded; the padding contribution depends on offset modulo 4.", "anchors": ["src/chunks/storage/array.rs: chunk_len, write_ndarray_chunk", "src/chunks/storage/quantized.rs: chunk_len_, write_chunk", "src/chunks/norms.rs: chunk_len, write_chunk", "src/chunks/metadata.rs: chunk_len, write_chunk"]}
{"id": "C06", "title": "write_embeddings_len equals the bytes of the whole file", "statement": "write_embeddings_len(offset) is exactly the number of bytes write_embeddings emits when started at that offset, for every combination of vocabulary, storage, optional norms and optional metadata.", "quantifier": "for all embeddings and all starting offsets", "why_tests_cant": "The product of types, optional chunks and offsets is unbounded.", "anchors": ["src/embeddings.rs: WriteEmbeddings::write_embeddings, write_embeddings_len"]}
{"id": "C07", "title": "Simple vocabulary round trip", "statement": "Writing a word-only vocabulary and reading it back yields the same words in the same order, and the reader stops exactly at the end of the chunk.", "quantifier": "for all duplicate-free word lists (any Unicode), offsets and trailing bytes; words shorter than 4 GiB, fewer than 2^32 buckets/n-grams parameters where the format stores 32 bits, contents that fit into memory", "why_tests_cant": "Words are arbitrary Unicode strings of arbitrary number.", "anchors": ["src/chunks/vocab/simple.rs: read_chunk, write_chunk", "src/chunks/vocab/mod.rs: read_vocab_items, write_vocab_items, read_string, write_string"]}
{"id": "C08", "title": "Bucketed subword vocabulary round trip", "statement": "Writing a bucket-hash or fastText subword vocabulary and reading it back yields an equal vocabulary (words, n-gram lengths, buckets, word-boundary markers).", "quantifier": "for all vocabularies of these types, offsets and trailing bytes; words shorter than 4 GiB, fewer than 2^32 buckets/n-grams parameters where the format stores 32 bits, contents that fit into memory", "why_tests_cant": "Tests only use default boundary markers and one bucket count; boundary markers are user-settable.", "anchors": ["src/chunks/vocab/subword.rs: new_with_boundaries, read_bucketed_chunk, write_bucketed_chunk"]}
{"id": "C09", "title": "Explicit n-gram vocabulary round trip", "statement": "Writing an explicit n-gram vocabulary and reading it back yields an equal vocabulary: same words, n-grams, n-gram indices and bound, for every indexer obtainable from the constructors.", "quantifier": "for all explicit vocabularies built through the public constructors, offsets and trailing bytes; words shorter than 4 GiB, fewer than 2^32 buckets/n-grams parameters where the format stores 32 bits, contents that fit into memory", "why_tests_cant": "The reader renumbers the stored indices; that this is the identity needs an argument over all reachable indexers.", "anchors": ["src/subword.rs: ExplicitIndexer::new, new_with_indices", "src/chunks/vocab/subword.rs: read_ngram_chunk, write_ngram_chunk, read_ngrams_with_indices, write_ngrams_with_indices"]}
{"id": "C10", "title": "Floret vocabulary round trip", "statement": "Writing a floret vocabulary and reading it back yields an equal vocabulary, including its words, seed, number of hashes and boundary markers.", "quantifier": "for all floret vocabularies, offsets and trailing bytes; words shorter than 4 GiB, fewer than 2^32 buckets/n-grams parameters where the format stores 32 bits, contents that fit into memory", "why_tests_cant": "Tests only cover vocabularies without words; the type permits words.", "anchors": ["src/chunks/vocab/subword.rs: impl ReadChunk/WriteChunk for FloretSubwordVocab", "src/compat/floret/indexer.rs: FloretIndexer::new"]}
{"id": "C11", "title": "Array storage round trip is bit exact", "statement": "Writing a dense embedding matrix and reading it back yields the same shape and the same bit pattern for every component (NaN payloads and signed zeros included).", "quantifier": "for all matrices of all shapes that exist in memory with fewer than 2^32 columns, offsets and trailing bytes", "why_tests_cant": "All bit patterns and shapes cannot be enumerated.", "anchors": ["src/chunks/storage/array.rs: write_ndarray_chunk, NdArray::read_chunk"]}
{"id": "C12", "title": "Quantized storage round trip is bit exact", "statement": "Writing a quantized matrix and reading it back yields the same quantizer, projection, codes and norms bit for bit.", "quantifier": "for all quantized arrays (with/without projection, with/without norms) that exist in memory and whose dimensions are below 2^32, offsets and trailing bytes", "why_tests_cant": "Four layouts times unbounded shapes times four alignments.", "anchors": ["src/chunks/storage/quantized.rs: write_chunk, read_chunk, read_product_quantizer, write_product_quantizer"]}
{"id": "C13", "title": "Norms round trip is bit exact", "statement": "Writing norms and reading them back yields the same norms bit for bit.", "quantifier": "for all norm vectors that exist in memory, offsets and trailing bytes", "why_tests_cant": "Unbounded lengths and alignments.", "anchors": ["src/chunks/norms.rs: read_chunk, write_chunk"]}
{"id": "C14", "title": "Metadata round trip", "statement": "Writing metadata and reading it back yields equal metadata, given that TOML serialisation followed by parsing is the identity.", "quantifier": "for all metadata values, offsets and trailing bytes", "why_tests_cant": "Metadata text is arbitrary Unicode of arbitrary length.", "anchors": ["src/chunks/metadata.rs: read_chunk, write_chunk"]}
{"id": "C15", "title": "Whole-embeddings round trip", "statement": "Embeddings written with write_embeddings and read with read_embeddings are equal in metadata, vocabulary, storage and norms, for every vocabulary and in-memory storage type, at any offset. What the format does not store is excepted: boundary markers other than < and > (C08, C09) and the words of floret vocabularies (C10).", "quantifier": "for all embeddings of all vocab x storage types with optional metadata and norms, all offsets", "why_tests_cant": "The composition of all chunks at all alignments; tests use a few fixtures.", "anchors": ["src/embeddings.rs: ReadEmbeddings::read_embeddings, WriteEmbeddings::write_embeddings"]}
{"id": "C16", "title": "Reading through the run-time wrapper types agrees with reading the concrete type", "statement": "Reading a chunk as the vocabulary (storage) wrapper succeeds with the wrapped value exactly when reading it as the concrete type named by the chunk identifier succeeds with that value; the viewable storage wrapper refuses quantized chunks.", "quantifier": "for all byte streams and positions", "why_tests_cant": "Arbitrary bytes, including malformed ones.", "anchors": ["src/chunks/vocab/wrappers.rs: VocabWrap::read_chunk", "src/chunks/storage/wrappers.rs: StorageWrap::read_chunk, StorageViewWrap::read_chunk"]}
{"id": "C17", "title": "Truncated or partially written files never yield wrong data", "statement": "If only the first n bytes of a written embeddings file are present (crash while writing, truncated download), reading never panics and never returns different metadata, words or vectors: it fails with an I/O error, or it returns the original embeddings with at most the norms missing. The first n bytes of any other data give an I/O error, or exactly the outcome of all the data, or embeddings without norms that agree with those of all the data except for the norms (unless the norms make the reader panic).", "quantifier": "for all embeddings and all cut points n", "why_tests_cant": "Every crash point of every file must be covered.", "anchors": ["src/embeddings.rs: read_embeddings", "src/chunks/**: read_chunk"]}
{"id": "C18", "title": "Truncation is detected", "statement": "If a strict prefix of a written embeddings file is read, an error is returned (a reader never silently accepts an incomplete file).", "quantifier": "for all embeddings and all cut points", "why_tests_cant": "Every crash point of every file must be covered.", "anchors": ["src/embeddings.rs: read_embeddings (norms read with .ok())"]}
{"id": "C19", "title": "Failing writers are reported and leave a prefix", "statement": "If the underlying writer fails after accepting any number of bytes, write_embeddings returns an error, and what was accepted is a prefix of the complete output; success is returned only when the complete output was accepted.", "quantifier": "for all embeddings and all failure points", "why_tests_cant": "The failure point ranges over every byte of every file.", "anchors": ["src/embeddings.rs: write_embeddings", "src/chunks/**: write_chunk"]}
{"id": "C20", "title": "read_metadata agrees with reading the whole file", "statement": "Reading only the metadata of a written file returns exactly the metadata of the embeddings, None when there is none.", "quantifier": "for all embeddings and offsets", "why_tests_cant": "All embeddings; tests check one file.", "anchors": ["src/chunks/metadata.rs: ReadMetadata::read_metadata", "src/embeddings.rs: write_embeddings"]}
{"id": "C21", "title": "Memory mapping agrees with reading", "statement": "Memory mapping a dense or quantized storage chunk gives, for every row index and every list of row indices, the same vectors as reading the chunk into memory, with the same shape, and writes back the same bytes.", "quantifier": "for all well-formed files, offsets and row indices", "why_tests_cant": "All shapes, alignments and indices.", "anchors": ["src/chunks/storage/array.rs: MmapArray", "src/chunks/storage/quantized.rs: MmapQuantizedArray"]}
{"id": "C22", "title": "Word index and word list are inverse", "statement": "In every vocabulary, looking up the i-th word gives exactly index i as a whole-word index, and a lookup returns a whole-word index only for the word at that position.", "quantifier": "for all vocabularies built by the constructors, all positions and all query strings", "why_tests_cant": "All vocabularies and all query strings.", "anchors": ["src/chunks/vocab/simple.rs: new, idx", "src/chunks/vocab/subword.rs: new_with_boundaries, idx", "src/chunks/vocab/mod.rs: create_indices"]}
{"id": "C23", "title": "Vocabulary constructors accept exactly duplicate-free word lists", "statement": "Constructing a vocabulary panics when the word list contains a duplicate and does not panic because of words otherwise; words() returns the given list.", "quantifier": "for all word lists", "why_tests_cant": "All word lists.", "anchors": ["src/chunks/vocab/simple.rs: SimpleVocab::new", "src/chunks/vocab/subword.rs: SubwordVocab::new_with_boundaries"]}
{"id": "C24", "title": "Subword indices stay inside the embedding matrix", "statement": "For every query string, the indices returned for an out-of-vocabulary word lie in [words_len, vocab_len), so no lookup can read a word row or run past the matrix; and whole-word indices are below words_len.", "quantifier": "for all subword vocabularies (bucket hash, fastText, explicit, floret) and all query strings", "why_tests_cant": "All strings and all hash values.", "anchors": ["src/chunks/vocab/subword.rs: subword_indices, idx, vocab_len", "src/subword.rs: HashIndexer, ExplicitIndexer", "src/compat/fasttext/indexer.rs", "src/compat/floret/indexer.rs"]}
{"id": "C25", "title": "Unknown words: when a subword lookup has an answer", "statement": "For vocabularies whose indexer maps every n-gram, an out-of-vocabulary word has an index exactly when the word with its boundary markers has at least min_n characters (floret: always); for explicit n-gram vocabularies exactly when one of its n-grams is in the n-gram inventory; word-only vocabularies have none.", "quantifier": "for all vocabularies with 1 <= min_n <= max_n and at least one bucket and all query strings", "why_tests_cant": "All strings.", "anchors": ["src/chunks/vocab/subword.rs: subword_indices", "src/subword.rs: NGrams, NGramsIndicesIter"]}
{"id": "C26", "title": "N-gram enumeration is exactly the set of substrings in the length range", "statement": "Enumerating n-grams of a string yields precisely the substrings of char length between min_n and max_n, once per occurrence, ordered by start position and then from long to short, with the right char length, never cutting a multi-byte character and never panicking for 1 <= min_n <= max_n; zero min_n or min_n > max_n is refused by a panic.", "quantifier": "for all strings and all length ranges", "why_tests_cant": "All Unicode strings and all ranges.", "anchors": ["src/subword.rs: NGrams::new, NGrams::next"]}
{"id": "C27", "title": "Iterator size hints are valid bounds", "statement": "The size hint of the n-gram iterator and of the subword-index iterator is a lower bound and an upper bound on the number of items the iterator will still yield.", "quantifier": "for all strings, ranges, scopes and iteration states", "why_tests_cant": "Every state of every iterator.", "anchors": ["src/subword.rs: NGrams::size_hint, NGramsIndicesIter::size_hint"]}
{"id": "C28", "title": "Bucket hash indexer: range and power-of-two semantics", "statement": "The bucket indexer with exponent e maps every n-gram to one index below 2^e, equal to its hash modulo 2^e; upper_bound is 2^e for every exponent the constructor accepts; two indexers are equal iff they have the same number of buckets.", "quantifier": "for all n-grams and all exponents accepted by the constructor (0..=64)", "why_tests_cant": "All n-grams; the boundary exponent 64 is untested.", "anchors": ["src/subword.rs: HashIndexer::new, index_ngram, upper_bound, PartialEq"]}
{"id": "C29", "title": "fastText and floret indexers stay in range and never panic", "statement": "Every index the fastText indexer returns is below the number of buckets, with exactly one index per n-gram; the floret indexer returns exactly n_hashes indices, each below n_buckets; indexers accepted by the constructor never panic on any n-gram.", "quantifier": "for all n-grams and all constructor arguments accepted", "why_tests_cant": "All strings; all bucket counts including 0.", "anchors": ["src/compat/fasttext/indexer.rs", "src/compat/floret/indexer.rs"]}
{"id": "C30", "title": "Explicit indexer renumbering", "statement": "Building an explicit indexer from n-grams with indices gives two n-grams the same new index iff they had the same old index, the new indices are exactly 0..bound-1, numbered in order of first appearance, and the returned mapping sends each old index to its new one; duplicates panic.", "quantifier": "for all lists of (n-gram, index) pairs", "why_tests_cant": "All lists.", "anchors": ["src/subword.rs: ExplicitIndexer::new, new_with_indices, index_ngram, upper_bound"]}
{"id": "C31", "title": "N-gram listing agrees with the lookup", "statement": "The indices attached to the n-grams that ngram_indices reports for a word, concatenated in order and offset by words_len, are exactly the indices subword_indices uses for lookup (None iff that concatenation is empty).", "quantifier": "for all subword vocabularies with substring scope and all words", "why_tests_cant": "All words.", "anchors": ["src/chunks/vocab/subword.rs: ngram_indices, subword_indices", "src/subword.rs: subword_indices_with_ngrams, subword_indices"]}
{"id": "C32", "title": "Conversion to explicit n-grams preserves known-word embeddings", "statement": "Converting bucketed embeddings to explicit n-gram embeddings never panics, and every vocabulary word has the same embedding, index and norm before and after.", "quantifier": "for all bucketed embeddings with 1 <= min_n <= max_n and at least one bucket and all hash-map iteration orders", "why_tests_cant": "The result depends on randomized hash-map iteration order.", "anchors": ["src/embeddings.rs: try_to_explicit, to_explicit_impl", "src/chunks/vocab/subword.rs: to_explicit"]}
{"id": "C33", "title": "Conversion to explicit n-grams preserves unknown-word embeddings", "statement": "After conversion, an unknown word whose n-grams all occur in vocabulary words has the same embedding as before; n-grams that do not occur in any vocabulary word contribute nothing.", "quantifier": "for all bucketed embeddings (any boundary markers), all words and all hash-map iteration orders", "why_tests_cant": "All words and iteration orders; tests only use default boundary markers.", "anchors": ["src/embeddings.rs: to_explicit_impl", "src/chunks/vocab/subword.rs: to_explicit (constructs with default boundary markers)"]}
{"id": "C34", "title": "embedding_into agrees with embedding", "statement": "embedding_into returns true and writes exactly the vector embedding returns when there is one, and returns false and leaves the target untouched otherwise; both panic in the same cases.", "quantifier": "for all embeddings, words and target vectors of the right length (for one-dimensional embeddings: up to the order in which the components are added)", "why_tests_cant": "All words incl. multi-subword ones.", "anchors": ["src/embeddings.rs: embedding, embedding_into"]}
{"id": "C35", "title": "Batch lookup agrees with single lookup", "statement": "embedding_batch returns for every position of the batch the vector and found-flag that a single lookup of that word returns (zero vector when not found), also with repeated words, independent of hash-map iteration order; embedding_batch_into leaves rows of unknown words untouched.", "quantifier": "for all embeddings, word batches (any length, with repetitions) and all iteration orders", "why_tests_cant": "Iteration order is randomized; tests see one order per run.", "anchors": ["src/embeddings.rs: embedding_batch, embedding_batch_into"]}
{"id": "C36", "title": "Lookups of consistent embeddings never go out of bounds", "statement": "For embeddings built with the constructor from a vocabulary with usable n-gram settings, looking up any word (single, into a target of the right length, batch, with norm) never panics; the constructor panics exactly when the vocabulary size differs from the number of rows or the number of words from the number of norms.", "quantifier": "for all embeddings constructed via new from vocabularies with 1 <= min_n <= max_n and at least one bucket (the other settings panic: C25, C29) and rectangular storages, all words", "why_tests_cant": "All words.", "anchors": ["src/embeddings.rs: new, new_with_maybe_norms, embedding, embedding_batch, embedding_with_norm"]}
{"id": "C37", "title": "Files that parse are internally consistent", "statement": "If read_embeddings succeeds, the vocabulary size equals the number of storage rows and the number of norms equals the number of words, so that later lookups cannot panic.", "quantifier": "for all byte streams", "why_tests_cant": "All malformed files.", "anchors": ["src/embeddings.rs: read_embeddings", "src/embeddings.rs: embedding_with_norm"]}
{"id": "C38", "title": "Normalisation", "statement": "In exact arithmetic, l2 normalisation returns the Euclidean norm, leaves a zero vector unchanged and turns any other vector into a unit vector; vector times returned norm is the original. Embeddings read by the text/word2vec/fastText readers are unit or zero and row times norm is the vector in the file; an out-of-vocabulary embedding is unit or zero.", "quantifier": "for all real vectors of any dimension", "why_tests_cant": "All vectors.", "anchors": ["src/util.rs: l2_normalize, l2_normalize_array", "src/embeddings.rs: embedding (subword case)", "src/compat/word2vec.rs:58-72", "src/compat/text.rs", "src/compat/fasttext/io.rs:95-118"]}
{"id": "C39", "title": "Norms accessors are consistent", "statement": "embedding_with_norm returns the same vector as embedding, with the stored norm for a known word (1 when there are no norms) and, for an unknown word, the norm that the sum of its n-gram vectors had before normalisation; into_unnormalized is vector times norm; iteration with norms pairs the i-th word with the i-th row and i-th norm.", "quantifier": "for all embeddings and words", "why_tests_cant": "All words/rows.", "anchors": ["src/embeddings.rs: embedding_with_norm, EmbeddingWithNorm::into_unnormalized, Iter, IterWithNorms"]}
{"id": "C40", "title": "Iteration agrees with lookup", "statement": "Iterating over embeddings yields each vocabulary word once, in order, with the vector that looking the word up returns.", "quantifier": "for all embeddings", "why_tests_cant": "All embeddings.", "anchors": ["src/embeddings.rs: Iter, iter, IterWithNorms"]}
{"id": "C41", "title": "Similarity queries return exactly the top results", "statement": "A similarity query returns min(limit, candidates) results, sorted by similarity descending (as numbers, so zeros of both signs are equal) and then word ascending; every candidate left out is worse than every returned one; results are distinct vocabulary words with their similarity to the query.", "quantifier": "for all embeddings, query vectors, skip sets and limits >= 1 without NaN similarities", "why_tests_cant": "The bounded heap must be right for every order of arrival and tie pattern.", "anchors": ["src/similarity.rs: similarity_, WordSimilarityResult::cmp"]}
{"id": "C42", "title": "Similarity results do not depend on the batch size", "statement": "For any two batch sizes >= 1 the result of a similarity query is the same.", "quantifier": "for all embeddings, queries and pairs of batch sizes", "why_tests_cant": "All batch sizes relative to all vocabulary sizes.", "anchors": ["src/similarity.rs: similarity_ (axis_chunks_iter, batch offset)"]}
{"id": "C43", "title": "Similarity queries do not panic", "statement": "A similarity, analogy or embedding-similarity query with any limit and batch size on NaN-free embeddings returns a result rather than panicking.", "quantifier": "for all limits, batch sizes, embeddings", "why_tests_cant": "Edge cases such as limit 0 or an empty vocabulary.", "anchors": ["src/similarity.rs: similarity_"]}
{"id": "C44", "title": "Query words are excluded as requested", "statement": "word_similarity never returns the query word and analogy none of its three words; analogy_masked never returns a query word whose mask entry is true and may return the others; embedding_similarity skips nothing unless told.", "quantifier": "for all embeddings, queries, masks", "why_tests_cant": "All queries.", "anchors": ["src/similarity.rs: word_similarity, analogy_masked, embedding_similarity_masked"]}
{"id": "C45", "title": "Analogy vector and error flags", "statement": "An analogy query a:b = c:? ranks by the normalised vector b - a + c; it fails exactly when one of the three words has no embedding and reports precisely which ones do.", "quantifier": "for all embeddings and word triples", "why_tests_cant": "All combinations of known/unknown words.", "anchors": ["src/similarity.rs: analogy_masked, lookup_words3"]}
{"id": "C46", "title": "Similarity measure conversions", "statement": "In exact arithmetic on unit vectors: the reported Euclidean distance equals the norm of the difference, the Euclidean similarity is one minus half of it, angular similarity is one minus the angle as a fraction of a half turn, both similarities lie in [0,1] with the ends exactly for equal and opposite directions, and all converted measures rank results in the same order as cosine similarity.", "quantifier": "for all similarity values in [-1,1]", "why_tests_cant": "A continuum of values.", "anchors": ["src/similarity.rs: WordSimilarityResult::angular_similarity, cosine_similarity, euclidean_distance, euclidean_similarity"]}
{"id": "C47", "title": "Storage: batch row access agrees with single row access", "statement": "For every storage, embeddings(indices) has as its k-th row embedding(indices[k]); shape matches; building a storage from a row mapping gives exactly the mapped rows (and norms); reconstructing a quantized matrix gives the same rows as single lookups, and succeeds exactly if every row can be looked up.", "quantifier": "for all storages and index lists", "why_tests_cant": "All index lists.", "anchors": ["src/chunks/storage/mod.rs: Storage, CloneFromMapping", "src/chunks/storage/array.rs", "src/chunks/storage/quantized.rs"]}
{"id": "C48", "title": "word2vec round trip", "statement": "Embeddings whose words contain no space and neither begin nor end with white space, written in word2vec format and read back without normalisation, have the same words and bit-identical (un-normalised) vectors. Words outside this class never come out of the reader, which removes exactly the Unicode white space around a word. The normalising reader returns the normalised rows and their norms. A file with at least one component per word is accepted by the raw reader exactly if its first line has two numbers, the matrix they promise can be allocated, the promised number of records follows, each a decodable text, a space and the promised number of components, and the trimmed words are distinct; the result has these words and components and the rest of the file is left unread. With zero components, the words are the following parts of the file between spaces, the part behind the last space but its last byte is one word (C54), and what is promised beyond the end of the file is made up as empty words; the readers panic exactly if the word list cannot be allocated or two trimmed words are equal, so at most one word can be made up. With at least one component, the readers panic exactly if the promised matrix or word list cannot be allocated or all promised records are there and two trimmed words are equal.", "quantifier": "for all vocabularies and matrices", "why_tests_cant": "All words incl. ones with whitespace.", "anchors": ["src/compat/word2vec.rs: read_word2vec_binary_raw, write_word2vec_binary", "src/util.rs: read_string, read_number"]}
{"id": "C49", "title": "Text and text-with-dims round trip", "statement": "Embeddings with at least one word, whose words are non-empty and free of ASCII white space, written as text (with or without the dimensions line) and read back without normalisation, have the same words and vectors, given that parsing a printed float gives it back. Words outside this class never come out of the reader.", "quantifier": "for all vocabularies and matrices", "why_tests_cant": "All words and values.", "anchors": ["src/compat/text.rs: read_embeds, read_text_raw, read_text_dims_raw, write_text, write_text_dims"]}
{"id": "C50", "title": "Text readers reject malformed tables", "statement": "A text embedding file whose lines do not all carry the same number of components (or not the number promised) is rejected with an error; no input makes the reader panic.", "quantifier": "for all input byte streams", "why_tests_cant": "All malformed inputs.", "anchors": ["src/compat/text.rs: read_embeds"]}
{"id": "C51", "title": "floret round trip", "statement": "Floret embeddings written in floret text format and read back have the same n-gram lengths, numbers of buckets and hashes, seed and boundary markers, and bit for bit the same bucket vectors, if the first marker has no space and the second no line feed, n-gram lengths fit into 32 bits and there is at least one dimension. Words are not part of the format: without words, vocabulary and matrix come back unchanged; with words, only the words and their vectors are lost.", "quantifier": "for all floret vocabularies and matrices whose components survive decimal printing", "why_tests_cant": "All hyper-parameters, incl. those beyond 32 bits.", "anchors": ["src/compat/floret/io.rs"]}
{"id": "C52", "title": "fastText round trip", "statement": "Embeddings with a fastText vocabulary (default boundary markers, words without NUL, sizes that fit the format) written in fastText format and read back have the same vocabulary, the same bucket vectors and, in exact arithmetic, the same un-normalised word vectors; vectors and norms are unchanged altogether if the word vectors were unit vectors with positive norms or zero vectors with norm zero.", "quantifier": "for all fastText vocabularies, storages and norms, provided the written numbers are representable", "why_tests_cant": "All words; the writer must invert the reader's subword averaging.", "anchors": ["src/compat/fasttext/io.rs: read_fasttext_private, write_fasttext, add_subword_embeddings, write_embeddings"]}
{"id": "C53", "title": "fastText reader rejects unsupported models with an error", "statement": "Files with wrong magic, a newer version, unknown loss/model identifiers, pruned vocabularies, labels, or a quantized or misshapen matrix are refused with an error and not with a panic.", "quantifier": "for all byte streams", "why_tests_cant": "All malformed inputs.", "anchors": ["src/compat/fasttext/io.rs"]}
{"id": "C54", "title": "Delimited string reading", "statement": "Reading a delimiter-terminated string returns exactly the bytes before the delimiter and consumes the delimiter; at end of input without delimiter it returns all remaining bytes or an error. A number is exactly one or more decimal digits of a 64-bit value after an optional plus sign; everything else is an error.", "quantifier": "for all byte streams and delimiters", "why_tests_cant": "All byte streams.", "anchors": ["src/util.rs: read_string, read_number"]}
{"id": "C55", "title": "Lossy and strict readers agree on valid UTF-8", "statement": "The strict and the lossy word2vec, text and fastText readers return the same on every input, unless some word or line is not valid UTF-8; then the strict reader returns a format error. Lossy decoding itself never fails: it replaces each longest beginning of a character encoding that is not completed (at least one byte) by U+FFFD and decodes everything else.", "quantifier": "for all input byte streams", "why_tests_cant": "All byte streams.", "anchors": ["src/compat/word2vec.rs", "src/compat/text.rs", "src/compat/fasttext/io.rs", "src/util.rs: read_string"]}
{"id": "C56", "title": "Malformed finalfusion input yields errors, not panics", "statement": "Reading a vocabulary, storage or whole embeddings from any byte stream returns a value or an error and does not panic.", "quantifier": "for all byte streams", "why_tests_cant": "All malformed inputs.", "anchors": ["src/chunks/**: read_chunk", "src/embeddings.rs: read_embeddings"]}
{"id": "C57", "title": "Quantization bit guard and shape", "statement": "Quantizing fails with an error, without training, unless the number of bits is at most 8 and (zero bits excepted) 2^bits is at most the number of vectors; training errors are passed on. If it succeeds, the quantized storage has the shape of the original, there are 2^bits centroids, every row can be looked up and has the original length, norms are stored exactly if normalisation was requested, and vocabulary, metadata and norms of the embeddings are kept, so every lookup in the vocabulary gives the same result and consistent embeddings stay consistent.", "quantifier": "for all matrices and bit counts", "why_tests_cant": "All sizes near powers of two.", "anchors": ["src/chunks/storage/quantized.rs: quantize_using, check_subquantizers", "src/embeddings.rs: quantize_using"]}
{"id": "C58", "title": "Conversions between concrete and wrapped embeddings preserve behaviour", "statement": "Converting embeddings to the wrapper types keeps metadata, norms, every lookup, iteration, and the bytes written.", "quantifier": "for all embeddings", "why_tests_cant": "All embeddings.", "anchors": ["src/embeddings.rs: From impls", "src/chunks/vocab/wrappers.rs", "src/chunks/storage/wrappers.rs"]}
{"id": "C59", "title": "Memory mapping detects truncated files", "statement": "Memory mapping a storage chunk whose data is not completely present in the file returns an error, so that later lookups cannot crash.", "quantifier": "for all files and positions", "why_tests_cant": "Needs files truncated inside the matrix; the crash is a signal and not an observable error.", "anchors": ["src/chunks/storage/array.rs: MmapArray::mmap_chunk", "src/chunks/storage/quantized.rs: MmapQuantizedArray::mmap_chunk"]}
{"id": "C60", "title": "Malformed floret files yield errors", "statement": "The floret reader accepts a file exactly if the first line has valid parameters and the table has exactly the promised lines and columns, all numbers, and then returns exactly these. Any other file yields an error (a format error if the first line is bad; after a valid first line, an I/O error if the first bad line is not valid UTF-8, a format error if it is otherwise bad, a shape error if only the number of lines is wrong); the reader panics only if a valid first line promises more than fits into the address space.", "quantifier": "for all byte streams", "why_tests_cant": "All malformed inputs; truncated and ragged tables, bad parameters.", "anchors": ["src/compat/floret/io.rs: read_floret"]}
{"id": "C61", "title": "Word vectors of fastText models", "statement": "After a fastText model is read, the rows of the n-gram buckets are those of the file. The row of each word is the average of the word's row and its n-grams' rows in the file (the word's own row if it has no n-grams), divided by its norm; the norms are kept.", "quantifier": "for all files that are read successfully", "why_tests_cant": "All words, all overlaps of n-gram buckets; the reader overwrites word rows in place while it still reads n-gram rows.", "anchors": ["src/compat/fasttext/io.rs:95-118, 407-424: add_subword_embeddings, read_fasttext_private"]}
{"id": "C62", "title": "Exactly which fastText files are accepted and which panic", "statement": "A fastText file is accepted exactly if it has the layout of a supported, unquantized, unpruned model without labels whose words decode and are pairwise different, with fewer than 2^31 buckets, a matrix with one row per word and bucket, and n-gram lengths with which every word's n-grams can be looked up. The reader panics exactly if words repeat, there are 2^31 or more buckets, the matrix cannot be allocated, a word's n-grams cannot be looked up, or the row of a word or of one of its n-grams is missing; every other file gives an error.", "quantifier": "for all byte streams and positions", "why_tests_cant": "All byte streams.", "anchors": ["src/compat/fasttext/io.rs"]}
{"id": "C63", "title": "Quantization error", "statement": "If quantization is requested with normalisation, the distance between the quantized embedding of a word and the original one is the error of the quantizer on the unit vector times the norm of the original; without normalisation it is the error of the quantizer. If the quantizer reproduces its input, the lookup reproduces the original embedding.", "quantifier": "for all matrices (over the reals), quantizers and words", "why_tests_cant": "All matrices and all quantizers; rounding hides the relation.", "anchors": ["src/chunks/storage/quantized.rs: quantize_using, embedding"]}
{"id": "C64", "title": "Exactly which finalfusion data make the readers panic", "statement": "The header reader never panics. Each chunk reader panics exactly if one of these holds: a length in the chunk is too large to allocate; words repeat; n-grams repeat; the bucket exponent is 64 or more; there are 2^31 or more fastText buckets; there are no floret buckets; the quantized length, the number of centroids or the reconstructed length is zero. Reading embeddings panics exactly if one of the chunks it gets to panics. All other data give a value or an error.", "quantifier": "for all byte streams and positions", "why_tests_cant": "All byte streams.", "anchors": ["src/chunks/**: read_chunk, mmap_chunk", "src/embeddings.rs: read_embeddings, mmap_embeddings"]}
{"id": "C65", "title": "Byte layout of finalfusion files", "statement": "A written file consists of the letters FiFu, version 0, the number and the identifiers of the chunks, and the chunks in the order metadata, vocabulary, storage, norms. A chunk is its identifier (32 bit), the length of its contents (64 bit) and the contents. The contents are those of the format: numbers are little-endian with the documented width, strings are preceded by their length, single precision data are preceded by the type number 10 and between 1 and 4 zeros that align the data.", "quantifier": "for all vocabularies, storages, norms and metadata, and all stream positions", "why_tests_cant": "Round-trip tests do not notice if reader and writer change together; a golden file covers one input.", "anchors": ["src/chunks/io.rs: Header::write_chunk, ChunkIdentifier, TypeId", "src/chunks/**: write_chunk", "src/embeddings.rs: write_embeddings"]}
{"id": "C66", "title": "Hash functions", "statement": "The bucket of an n-gram is: in bucket vocabularies, 64-bit FNV-1a of the number of characters (8 bytes) and the code points (4 bytes each), modulo 2^exponent; in fastText vocabularies, 32-bit FNV-1a of the UTF-8 bytes with sign extension, modulo the number of buckets; in floret vocabularies, the 32-bit words of MurmurHash3_x64_128 of the UTF-8 bytes with the seed, modulo the number of buckets.", "quantifier": "for all n-grams, numbers of buckets, seeds and numbers of hashes", "why_tests_cant": "Tests compare a few strings; bytes from 128, long n-grams (more than 16 bytes) and carries are easy to miss.", "anchors": ["src/subword.rs: HashIndexer::index_ngram, Hash for StrWithCharLen", "src/compat/fasttext/indexer.rs: fasttext_hash, index_ngram", "src/compat/floret/indexer.rs: index_ngram"]}
{"id": "C67", "title": "Exactly which finalfusion data are accepted and with which result", "statement": "Reading a chunk at a position succeeds with a given value exactly if the data at the position has the byte form of that chunk for that value: the right identifier, any recorded length (which is ignored except in metadata), the counts, flags, types and contents in little-endian order, and between one and four skipped padding bytes up to a multiple of four. The reader then stops at the end of that form. Lengths that cannot be allocated and contents the constructors refuse do not have that form. Reading embeddings succeeds with given embeddings exactly if there is a header that is not empty, metadata if the first identifier says so, the vocabulary, the storage, and after it the norms; the embeddings have no norms exactly if no norms chunk can be read there. A header without identifiers is always rejected. Identifiers after the first are ignored.", "quantifier": "for all byte streams, positions and results; for all chunk types, the wrappers and whole files", "why_tests_cant": "All byte streams and all values; an equivalence also excludes that anything else is accepted.", "anchors": ["src/chunks/**: read_chunk", "src/chunks/metadata.rs: read_metadata", "src/embeddings.rs: read_embeddings"]}
{"id": "C68", "title": "What exactly a vocabulary round trip keeps", "statement": "Writing a bucket-hash, fastText or explicit n-gram vocabulary with any boundary markers and reading it back gives the vocabulary with the same words, n-gram lengths and indexer and with the markers `<` and `>`. Writing a floret vocabulary with any words and reading it back gives the same vocabulary without its words (markers, seed, hashes, buckets and n-gram lengths are kept).", "quantifier": "for all word lists the constructors accept, all markers, n-gram lengths and indexers, at any position of a file, whatever precedes and follows", "why_tests_cant": "Markers and words are arbitrary strings; tests use the default markers and word-less floret vocabularies only.", "anchors": ["src/chunks/vocab/subword.rs: read_chunk, write_chunk"]}
{"id": "C69", "title": "Number of n-grams and when the size hint is exact", "statement": "An n-gram iterator over a string of L characters yields the sum over n from min_n to max_n of max(0, L + 1 - n) items; a new iterator's size hint is (max_n - min_n + 1) * L, and this is a valid lower bound exactly if the string is empty or max_n is 1. In builds with overflow checks, asking for the size hint panics exactly if this product needs more than 64 bits. The iterator over n-grams and indices yields the same number of items, plus one for indexers that also index the whole string.", "quantifier": "for all strings and all 1 <= min_n <= max_n", "why_tests_cant": "All strings and ranges; an exact count rather than examples.", "anchors": ["src/subword.rs: NGrams, NGramsIndicesIter"]}
{"id": "C70", "title": "Which truncations are noticed", "statement": "Of a file with non-empty matrix and non-empty norms only the first n bytes are present. If the cut is before the end of the storage chunk, reading fails with an I/O error; if it is inside the norms chunk, the embeddings are read without norms and are otherwise equal; if nothing is missing, they are read completely. Without norms every cut is an I/O error.", "quantifier": "for all storable embeddings, all prefixes before the file and every cut", "why_tests_cant": "Every cut position of every file.", "anchors": ["src/embeddings.rs: read_embeddings"]}
{"id": "C71", "title": "What lookups in memory-mapped storages read", "statement": "Memory-mapped dense data start at a multiple of four. Looking up row i crashes exactly if there is no such row or the row reaches beyond the last (4096-byte) page of the file; otherwise it returns the little-endian floats found in the file at the row's offset, with zeros for bytes behind the end of the file. Writing a mapped dense array crashes exactly if the array is not empty and ends beyond the last page of the file; otherwise it writes these floats. A mapped quantized array whose codes end within the last page behaves like that of the file completed with zeros.", "quantifier": "for all files, positions, shapes and rows, whether or not the file is complete", "why_tests_cant": "Depends on file length relative to page size; tests map complete files only.", "anchors": ["src/chunks/storage/array.rs: MmapArray", "src/chunks/storage/quantized.rs: MmapQuantizedArray"]}
{"id": "C72", "title": "Unknown words after conversion to explicit n-grams with any markers", "statement": "After conversion to explicit n-grams, the embedding of an unknown word is the normalised sum of the old vectors of those of its n-grams between `<` and `>` that occur in some vocabulary word between the old markers; it has no embedding if there is no such n-gram. The norm returned with it is the length of that sum.", "quantifier": "for all bucketed vocabularies, boundary markers, storages and unknown words, and any hash map iteration order", "why_tests_cant": "All vocabularies, markers and words; tests convert one fixed vocabulary with the default markers.", "anchors": ["src/embeddings.rs: to_explicit", "src/chunks/vocab/subword.rs: to_explicit"]}
{"id": "C73", "title": "Vectors of known and unknown words from first principles", "statement": "The embedding of a word is the stored row of its position in the word list if it is known. An unknown word has no embedding without subwords; otherwise its embedding is the entrywise sum, in n-gram order, of the rows at word count + bucket for the n-grams between the boundary markers (bucket: FNV-1a masked for bucket vocabularies, the 32-bit fastText hash modulo the bucket count, the murmur3 words modulo the bucket count for floret, the listed position or index for explicit n-grams), divided by its Euclidean norm unless that is zero; there is none if there are no indices.", "quantifier": "for all vocabularies of the five kinds built by their constructors, all storages and all words", "why_tests_cant": "All words, markers, n-gram lengths and bucket counts; tests compare a few words of one fixture file.", "anchors": ["src/embeddings.rs: embedding, embedding_into", "src/chunks/vocab/subword.rs: idx, subword_indices", "src/subword.rs: Indexer implementations"]}
{"id": "C74", "title": "Rows of quantized storages", "statement": "Looking up a row of a quantized storage crashes exactly if there is no such row or one of its codes is not smaller than the number of centroids. Otherwise the row is the concatenation of the centroids selected by its codes, multiplied by the transposed projection if there is one, and with every entry multiplied by the stored norm of that row if there are norms.", "quantifier": "for all well-formed quantized arrays, with or without projection and norms, and all row indices", "why_tests_cant": "All codebooks, codes, projections and norms; tests only compare the similarity of a few reconstructed rows with the originals.", "anchors": ["src/chunks/storage/quantized.rs: QuantizedArray::embedding"]}
{"id": "C75", "title": "The bytes of word2vec, text, floret and fastText files", "statement": "Writing word2vec and text files succeeds exactly if every word has a row and a norm. Each entry consists of the word, a space, the components (raw little-endian floats, or decimal floats separated by single spaces), multiplied by the norm if asked for, and a line feed; word2vec files and text files with dimensions begin with a line of the number of words and the dimensions in decimal. Floret files have a line of bucket count, dimensions, n-gram lengths, hash count, seed and markers and then numbered lines for the rows behind those of the words. fastText files have magic number 793712314, version 12, the configuration with zeros for everything unknown, the words with frequency zero, a zero flag, the shape, for each word its row times norm times (n-grams + 1) minus the rows of its n-grams, and the bucket rows; writing fails exactly if word count or dimensions do not fit into 32 bits or norms are missing.", "quantifier": "for all embeddings, vocabularies and storages, normalised or not", "why_tests_cant": "Round-trip tests accept any format on which reader and writer agree; fixtures cover one file per format.", "anchors": ["src/compat/word2vec.rs: write_word2vec_binary", "src/compat/text.rs: write_text, write_text_dims", "src/compat/floret/io.rs: write_floret_text", "src/compat/fasttext/io.rs: write_fasttext"]}
{"id": "C76", "title": "Normalisation in single precision", "statement": "Computed in 32-bit floats: for a vector of at most 2^20 finite components whose Euclidean length lies between 2^-31 and 2^49, the stored norm differs from the length by at most (n/8 + 20)/2^24 of it, the stored vector is finite and its length differs from one by at most (n/8 + 20)/2^23, and multiplying a component by the norm gives the original back up to 2^-22 of it (and 2^-149 times norm plus one). The zero vector is kept, with norm zero. This holds for the rows that the word2vec and text readers return and for vectors of unknown words. Beyond the range it fails: (2^64, 1) becomes the zero vector with infinite norm, (2^-75, 0) is kept with norm zero.", "quantifier": "for all vectors in the range, all files, all unknown words", "why_tests_cant": "Rounding errors of all vectors and dimensions; tests normalise a few small vectors and compare with a generous tolerance.", "anchors": ["src/util.rs: l2_normalize, l2_normalize_array", "src/embeddings.rs: embedding, into_unnormalized", "src/compat/word2vec.rs: read_word2vec_binary", "src/compat/text.rs: read_text, read_text_dims"]}
{"id": "C77", "title": "Similarity measures in single precision", "statement": "Every result of a similarity query has a Euclidean distance in [0, 2], and Euclidean and angular similarities in [0, 1], computed in 32-bit floats; a larger cosine similarity never gives a larger distance or a smaller similarity; the distance is the one of the law of cosines up to 2/2^24 of it, and the Euclidean similarity is one minus half of that up to 5/2^24. The angular similarity is one minus the angle as a fraction of a half turn, up to a third of the error of the arc cosine and 2/2^23.", "quantifier": "for all cosine similarities that queries return", "why_tests_cant": "All bit patterns, in particular those just above one; tests use four values of the cosine and none above one.", "anchors": ["src/similarity.rs: WordSimilarityResult::angular_similarity, euclidean_distance, euclidean_similarity"]}
{"id": "C78", "title": "Similarity queries in single precision", "statement": "Computed in 32-bit floats: if all rows and the query vector are finite with a Euclidean length of at most 2^49 and at most 2^20 components, word_similarity does not crash, every similarity is finite and differs from the inner product of row and query by at most 1.02 (n/8 + 13)/2^24 times the product of their lengths (plus 2^-106), and the results are the most similar words up to these errors: no word left out has an inner product larger than that of a result by more than both errors. Inner products of normalised vectors exceed one by at most 6 (n/8 + 20)/2^24.", "quantifier": "for all embeddings, storages with views, words, limits and batch sizes", "why_tests_cant": "All vectors, dimensions and summation orders; tests compare the ranking of one fixture file.", "anchors": ["src/similarity.rs: word_similarity, similarity_", "src/util.rs: l2_normalize"]}
{"id": "C79", "title": "Decimal texts of floats", "statement": "Components in text and floret files: a text is accepted as a float exactly if it is, after an optional sign, a decimal number with optional point and exponent (at least one digit) or one of the words nan, inf, infinity in any case; a number is read as the float nearest to its exact value (ties to even, infinity beyond the range), with its sign also for zero. A finite float is written without exponent as the shortest decimal number that is read as the same float (closest among equally short ones). Hence each float but NaN is read back bit by bit, and all files are read back bit by bit by read_text, read_text_dims and read_floret, with or without multiplication by the norms, except that each NaN becomes the quiet NaN.", "quantifier": "for all strings, all 2^32 bit patterns, all embeddings", "why_tests_cant": "There are 2^32 floats and infinitely many texts; tests compare a few components of one fixture within a tolerance.", "anchors": ["src/compat/text.rs: write_text, read_embeds", "src/compat/floret/io.rs: write_floret, read_floret"]}
{"id": "C80", "title": "Converting files of other formats to finalfusion", "statement": "Embeddings read from a word2vec, text (with or without first line), fastText or floret file, by any of the readers (normalising or raw, strict or lossy), can be written in the finalfusion format. The written file is read back as the same embeddings: same metadata, vocabulary, matrix bit by bit, and norms; as the concrete types and as the wrapper types. Opened memory mapped, it has the same metadata, vocabulary, norms and rows. This holds for files of up to a gibibyte with at least one row, and for larger files if no word takes 2^32 bytes or more and the rows have fewer than 2^32 components; for metadata it is assumed that the TOML library reads back what it printed. A word2vec file that promises no words of 2^32 components is accepted, but the number of components is lost.", "quantifier": "for all files that the readers accept", "why_tests_cant": "The conversion goes through two formats, and its correctness depends on what the first reader can return; tests convert no files.", "anchors": ["src/compat/word2vec.rs: read_word2vec_binary, read_word2vec_binary_raw", "src/compat/text.rs: read_text, read_text_dims", "src/compat/fasttext/io.rs: read_fasttext", "src/compat/floret/io.rs: read_floret", "src/embeddings.rs: write_embeddings, read_embeddings, mmap_embeddings"]}
{"id": "C81", "title": "Accessors and replacing the metadata", "statement": "Reading subword indices lazily, one n-gram at a time, gives the same list or the same panic as listing all n-grams first. The result of a lookup is the index of a word or the indices of subwords, never both. The accessors of vocabularies, indexers, n-grams, matrices, norms and embeddings return what the constructors were given. Embeddings taken apart by into_parts and put together by new give the same embeddings, and new accepts the parts exactly if there are as many rows as the vocabulary needs. set_metadata returns the previous metadata, metadata returns the new ones afterwards, and no query (sizes, words, lookups, norms, iteration, similarity, analogy) is answered differently; changing metadata in place likewise. Embeddings written after set_metadata are read back with the new metadata, also by read_metadata.", "quantifier": "for all embeddings, metadata, indexers, strings and n-gram lengths", "why_tests_cant": "All embeddings, queries and metadata; tests look at single values.", "anchors": ["src/subword.rs: NGramsIndicesIter", "src/vocab/mod.rs: WordIndex", "src/embeddings.rs: into_parts, metadata, metadata_mut, set_metadata, storage, vocab, norms", "src/chunks/metadata.rs: Metadata"]}
{"id": "C82", "title": "Truncated files of other formats", "statement": "A fastText file that is accepted is rejected with an error, without panic, if any of the bytes that are read are missing at its end; bytes behind them do not matter. The same holds for word2vec files whose first line has two positive numbers without superfluous zeros. A floret file, or a text file with a first line whose last line has components, that is cut off anywhere is rejected with an error or gives embeddings that differ from those of the whole file at most in the last component of the last row (in the last row and its norm, if rows are normalised); the reader does not panic. (A last number that is cut off within its digits is not noticed.)", "quantifier": "for all accepted files and all points at which they are cut off", "why_tests_cant": "All files and all lengths; a test cuts a few files at a few points.", "anchors": ["src/compat/fasttext/io.rs: read_fasttext", "src/compat/word2vec.rs: read_word2vec_binary_raw", "src/compat/text.rs: read_text_dims_raw", "src/compat/floret/io.rs: read_floret_text", "src/util.rs: read_number, read_string"]}
{"id": "C83", "title": "Conversion to explicit n-grams does not depend on hash map orders", "statement": "The n-grams of converted embeddings are exactly the n-grams of the vocabulary words between their markers, each once, and the storage has one row for every word and one for every bucket that is used by one of these n-grams. Converting the same embeddings twice, with whatever iteration orders of the hash maps involved, gives embeddings with the same words, norms, n-grams (up to order), storage shape and length of the vocabulary chunk, and with the same embedding and norm for every word, known or unknown. Only the bytes of written files may differ.", "quantifier": "for all bucketed vocabularies, boundary markers, storages, words and pairs of iteration orders", "why_tests_cant": "Iteration orders of hash maps are random and cannot be enumerated by tests; a test sees one order per run.", "anchors": ["src/embeddings.rs: to_explicit_impl", "src/chunks/vocab/subword.rs: to_explicit", "src/subword.rs: ExplicitIndexer::new_with_indices"]}
{"id": "C84", "title": "Files of converted embeddings", "statement": "Embeddings with a bucket or fastText vocabulary and a storage that is in memory or memory mapped, converted to explicit n-grams and written as a finalfusion file, are read back as exactly the converted embeddings, as concrete and as wrapper types, without metadata; opened with the storage memory mapped they have the same vocabulary, norms and rows. All words are still there and have the embeddings and norms that they had before the conversion.", "quantifier": "for all bucketed vocabularies whose words and n-grams fit the 32-bit length fields and addressable memory, all storages that fit their fields, and all hash map iteration orders", "why_tests_cant": "All vocabularies and storages; tests convert and write one fixed file.", "anchors": ["src/embeddings.rs: to_explicit_impl, try_to_explicit, write_embeddings, read_embeddings", "src/chunks/vocab/subword.rs: to_explicit, write_chunk, read_chunk", "src/chunks/storage/wrappers.rs: clone_from_mapping"]}
{"id": "C85", "title": "Memory reserved for lists of n-grams", "statement": "The memory that ngram_indices reserves is proportional to the number of n-grams that it lists.", "quantifier": "for all vocabularies with subwords and all words", "why_tests_cant": "All vocabularies and words; the reservation is not visible in the results that tests look at.", "anchors": ["src/chunks/vocab/subword.rs: ngram_indices", "src/subword.rs: NGrams::size_hint, NGramsIndicesIter::size_hint"]}
{"id": "C86", "title": "Errors of failed writes", "statement": "When a fastText file is written to a sink that fails after some number of bytes, writing ends with a write error (Error::Write), never with a read error.", "quantifier": "for all embeddings and all points of failure", "why_tests_cant": "Tests write to memory, which does not fail.", "anchors": ["src/compat/fasttext/io.rs: write_fasttext, write_vocab", "src/error.rs: Error::read_error, Error::write_error"]}
{"id": "C87", "title": "Whatever is read can be rewritten", "statement": "Whatever embeddings read_embeddings returns, from whatever data (also with wrong chunk lengths, other padding bytes, or identifiers that are not used), write_embeddings succeeds on them at every position, the written file is read back as the same embeddings, and writing what was read back gives the same bytes again; the same holds when the storage is memory mapped. Assumed of the TOML library: it reads back what it prints for the metadata.", "quantifier": "for all data, all positions, all vocabulary and storage types that can be read", "why_tests_cant": "The data is arbitrary; tests rewrite a few files that the library itself has written.", "anchors": ["src/embeddings.rs: read_embeddings, mmap_embeddings, write_embeddings", "src/chunks/vocab: read_chunk, write_chunk", "src/chunks/storage: read_chunk, write_chunk", "src/chunks/norms.rs: read_chunk, write_chunk"]}
{"id": "C88", "title": "I/O errors mean that data is missing", "statement": "A reader of finalfusion data reports an I/O error exactly if the data ends too early: there is a continuation of the data with another outcome. No other outcome (success of a chunk, another error, a panic) can be changed by appending data.", "quantifier": "for all data, all positions, all chunk types and whole files", "why_tests_cant": "All data and all continuations; tests do not ask which error malformed files give.", "anchors": ["src/chunks/io.rs: Header::read", "src/chunks/metadata.rs", "src/chunks/vocab/mod.rs, simple.rs, subword.rs, wrappers.rs", "src/chunks/storage/array.rs, quantized.rs, wrappers.rs", "src/chunks/norms.rs", "src/embeddings.rs: read_embeddings"]}
{"id": "C89", "title": "Moving data within a file", "statement": "Reading does not depend on where the data lies: with any bytes in front, and started behind them, the readers give the same result and stop as far behind the start.", "quantifier": "for all data, all positions, all bytes in front, all chunk types and whole files", "why_tests_cant": "All data and all offsets; tests read files from their beginning.", "anchors": ["src/chunks/storage/array.rs: read_chunk, mmap_chunk", "src/chunks/storage/quantized.rs: read_chunk", "src/chunks/norms.rs: read_chunk", "src/embeddings.rs: read_embeddings, mmap_embeddings", "src/util.rs: padding"]}
{"id": "C90", "title": "Several embeddings in one stream", "statement": "Embeddings that are written one after the other to one stream are read back one after the other, each reading starting where the one before left the stream.", "quantifier": "for all lists of embeddings whose parts survive their own round trip, all data in front of them and behind them; for finalfusion and word2vec files", "why_tests_cant": "Sequences of arbitrary embeddings with and without optional norms; the unit tests read one set of embeddings per stream.", "anchors": ["src/embeddings.rs: read_embeddings, write_embeddings, write_embeddings_len", "src/chunks/norms.rs: read_chunk", "src/compat/word2vec.rs: read_word2vec_binary_raw, write_word2vec_binary"]}
{"id": "C91", "title": "Vectors computed from several rows in single precision", "statement": "In single precision, a normalised vector, the vector of an unknown word, the vectors and norms of a fastText model after reading, and the rows of a quantized matrix with a projection equal their exact values (the direction of the vector, of the exact sum of the n-gram rows, of the exact average of the rows in the file, and the exact product of centroids, projection and norm) up to explicit error bounds. Similarity queries by vector and analogy queries are ranked by the inner product with the direction of the exact query vector (for analogies b - a + c), up to an explicit error bound.", "quantifier": "for all f32 bit patterns that are finite and of moderate size, up to 2^16 rows of up to 2^20 components that do not cancel each other out, all words, limits and skipped words", "why_tests_cant": "The bounds hold for all inputs and every order of magnitude within the stated range; a test compares a few vectors with a tolerance chosen by trial.", "anchors": ["src/embeddings.rs: embedding", "src/util.rs: l2_normalize", "src/compat/fasttext/io.rs:407-424", "src/similarity.rs: analogy_masked, embedding_similarity_masked", "src/chunks/storage/quantized.rs:273-282"]}
{"id": "C92", "title": "fastText round trip in single precision", "statement": "Embeddings with a fastText vocabulary that are written in fastText format and read back in single precision have the same vocabulary and bit for bit the same bucket vectors. The vector of each word equals its old vector and the norm its old norm, up to explicit error bounds.", "quantifier": "for all embeddings whose sizes fit into the format, words without NUL, finite f32 bit patterns; for each word with positive norm, at most 2^15 n-grams, vectors of moderate size, and a vector times norm that is not tiny compared with the rows of its n-grams", "why_tests_cant": "The writer subtracts the n-gram rows and the reader adds them again in a different order of operations; the size of the resulting error depends on the number of n-grams and on cancellation, for which a test only has a few samples with a chosen tolerance.", "anchors": ["src/compat/fasttext/io.rs: write_fasttext, write_embeddings, read_fasttext, add_subword_embeddings"]}
{"id": "C93", "title": "Byte order of the machine", "statement": "On machines of both byte orders, looking up vectors, matrices of rows and mapped copies in a memory-mapped storage has the outcome of a little-endian machine, and equals the lookup in memory. Writing gives the same bytes and lengths, except that a big-endian machine does not write a memory-mapped dense matrix but panics before the first byte. On a big-endian machine, mapping a chunk as a storage with views is an error and never a panic.", "quantifier": "for all data, positions, storages, indices, embeddings and both byte orders", "why_tests_cant": "The crate is tested on little-endian machines; the branches for big-endian ones are not even compiled there.", "anchors": ["src/chunks/storage/array.rs: MmapArray embedding, embeddings", "src/chunks/storage/wrappers.rs: write_chunk, chunk_identifier, chunk_len, mmap_chunk"]}
{"id": "C94", "title": "Word size of the machine", "statement": "A file that a machine reads, whatever the size of its machine words, is read by a 64-bit machine with the same result. Counts and lengths that do not fit into a machine word are reported as overflow. A file below 4 GiB that a 64-bit machine reads is read identically by a 32-bit machine, or refused by it with an overflow error or a capacity panic.", "quantifier": "for all data, positions and word sizes of 32 and 64 bits; all chunk types", "why_tests_cant": "The tests run on 64-bit machines and no test file announces 2^32 entries.", "anchors": ["src/chunks/vocab/simple.rs: read_chunk", "src/chunks/vocab/subword.rs:385-400, 540-550", "src/chunks/metadata.rs:55-65", "src/chunks/storage/array.rs: read_chunk", "src/chunks/storage/quantized.rs: read_chunk", "src/chunks/norms.rs: read_chunk"]}
{"id": "C95", "title": "Lookups in mapped storages stay within the map", "statement": "Every byte that a lookup in a memory-mapped storage loads is a byte of the map that was made when the chunk was mapped, and rows of dense matrices are aligned. Rows lie one behind the other without sharing bytes, and rows outside of the storage are refused.", "quantifier": "for all files, positions, row indices, and builds with and without overflow checks", "why_tests_cant": "The unsafe code trusts a length computed from two numbers of the file; the tests only map files written by the crate and are run in builds with overflow checks.", "anchors": ["src/chunks/storage/array.rs: MmapArray embedding, embeddings, view, mmap_chunk", "src/chunks/storage/quantized.rs: quantized_embeddings, mmap_quantized_embeddings, mmap_chunk"]}
{"id": "C96", "title": "Builds with and without overflow checks behave the same", "statement": "A build without overflow checks has the same outcome as a build with checks, for all operations whose arithmetic depends on numbers in files or on arguments: constructing and reading vocabularies, looking up words and n-grams, mapping storages, reading text and floret files.", "quantifier": "for all data, positions, words, vocabularies and indexers", "why_tests_cant": "Tests are run in one build profile (debug), users run another (release); overflow needs numbers above 2^64.", "anchors": ["src/subword.rs: HashIndexer::upper_bound, NGrams::size_hint", "src/chunks/vocab/subword.rs: new, vocab_len, subword_indices, ngram_indices", "src/chunks/storage/array.rs:142", "src/chunks/storage/quantized.rs: mmap_quantized_embeddings", "src/compat/text.rs: read_embeds", "src/compat/floret/io.rs: read_floret_text"]}
{"id": "C97", "title": "Errors say what is wrong with the data", "statement": "Readers of finalfusion data report only I/O errors, errors in the format and unknown chunk identifiers; the latter exactly if the next four bytes are not the number of a kind of chunk. Text readers report only errors in the format and of the shape; word2vec readers only I/O errors and errors in the format; fastText and floret readers those and errors of the shape. For word2vec and fastText, an I/O error means that data is missing: the data can be continued so that the outcome is none, however it goes on (for finalfusion data see C88). For floret, it means that a line is not valid text. For text, an error of the shape means that all lines are good but the number of components is not that of a matrix.", "quantifier": "for all data and positions", "why_tests_cant": "Which error is reported for which defect cannot be enumerated; callers decide by the kind of error whether to fetch more data or to give up.", "anchors": ["src/error.rs: Error", "src/chunks/io.rs: ChunkIdentifier, ReadChunk", "src/chunks/vocab/subword.rs: read_floret_chunk", "src/embeddings.rs: read_embeddings, mmap_embeddings", "src/compat/text.rs: read_embeds", "src/compat/word2vec.rs: read_word2vec_binary_raw", "src/compat/fasttext/io.rs: read_fasttext_private", "src/compat/floret/io.rs: read_floret_text"]}
{"id": "C98", "title": "Files that were normalised are restored", "statement": "A word2vec or text file (with or without a first line) that is read with normalisation and then written un-normalised can be read again; it has the words of the original in the same order and, computed in 32-bit floats, its vectors: each component of a vector of moderate length (at most 2^20 finite components, Euclidean length between 2^-31 and 2^49) differs by at most 2^-22 of it (and 2^-149 times one plus twice the length), zero vectors are the same to the bit. It is not exact, and beyond the range vectors are lost: (2^64, 1) is written as two NaNs. Embeddings without norms are written the same with and without un-normalising, to the bit, if no component is a NaN.", "quantifier": "for all files and all embeddings without norms", "why_tests_cant": "Rounding errors of all vectors in whole files; tests convert one small file and compare with a tolerance.", "anchors": ["src/compat/word2vec.rs: read_word2vec_binary, write_word2vec_binary", "src/compat/text.rs: read_text, read_text_dims, write_text, write_text_dims", "src/embeddings.rs: iter_with_norms, into_unnormalized", "src/util.rs: l2_normalize_array"]}
{"id": "C99", "title": "Results of similarity queries fit together", "statement": "If a similarity or analogy query succeeds with some limit, the same query with a smaller limit (at least one) returns the beginning of the same list. Skipping n more words gives the results of the query with a limit larger by n, without those words, cut off at the limit; excluding words of an analogy question by the mask gives the results of the query that excludes none, with a limit larger by three, without those words. Embeddings with the same words and vectors in another order (in any storage, with any batch size other than zero) give the same results in the same order, also among words that are equally similar.", "quantifier": "for all embeddings with distinct words, queries, limits, batch sizes and orders", "why_tests_cant": "Relations between pairs of queries over arbitrary embeddings; with ties and eviction from the heap a test would need to hit the right insertion order.", "anchors": ["src/similarity.rs: WordSimilarity, EmbeddingSimilarity, Analogy, similarity_", "src/similarity.rs: Ord for WordSimilarityResult"]}
{"id": "C100", "title": "Results of similarity queries form a total order", "statement": "Two results compare by their similarities as numbers (larger first; zeros of both signs are the same), and if those are equal by the code points of their words. This is a total order: reflexive, antisymmetric, transitive, and `cmp` is `Equal` exactly if `==` holds; `partial_cmp` always has the value of `cmp`. The results of every query are strictly ascending in this order and contain no NaN.", "quantifier": "for all pairs and triples of results, and all successful queries with a limit of at least one on embeddings with distinct words", "why_tests_cant": "All bit patterns of floats and all Unicode words; the order of words rests on UTF-8 preserving the order of code points in every pair of encoded lengths.", "anchors": ["src/similarity.rs: WordSimilarityResult, Ord, PartialOrd, PartialEq", "src/similarity.rs: similarity_"]}
{"id": "C101", "title": "Indexers tell the truth about missing n-grams", "statement": "Indexer::infallible is true exactly for the indexers that have an index for every n-gram: bucket hash, fastText and (as constructed) floret indexers. Every explicit indexer lacks some n-gram, whatever it was built from.", "quantifier": "for all indexers of all four types and all n-grams", "why_tests_cant": "All n-grams; that an explicit indexer always lacks one holds for every inventory.", "anchors": ["src/subword.rs: Indexer::infallible, HashIndexer, ExplicitIndexer", "src/compat/fasttext/indexer.rs: infallible", "src/compat/floret/indexer.rs: infallible"]}
{"id": "C102", "title": "Readers request memory in proportion to the data", "statement": "While it reads, a reader requests at most a constant times as many bytes of memory as there is data: six times for finalfusion and fastText files, 24 times for word2vec files and text with dimensions, four times for floret text. (False as stated, also for accepted files; proved for accepted chunks, files with norms and the other formats, and up to two requests for all data.)", "quantifier": "for all data, all positions, all outcomes, every chunk type, reading and memory mapping", "why_tests_cant": "All byte strings, with lengths in them that do not correspond to the data; allocations are not visible in results.", "anchors": ["src/chunks/vocab/mod.rs: read_string, read_vocab_items", "src/chunks/norms.rs: read_chunk", "src/embeddings.rs: read_embeddings", "src/compat/word2vec.rs: read_word2vec_binary_raw", "src/compat/text.rs: read_embeds", "src/compat/floret/io.rs: read_floret_text", "src/compat/fasttext/io.rs: read_vocab, read_embeddings"]}
{"id": "C103", "title": "A failure of the stream is not mistaken for the end of the data", "statement": "If the stream that is read fails with an I/O error, the outcome is that of reading the complete data (when the failure is not met) or an I/O error: a failure never shortens the result. In particular text and floret files are never accepted from a stream that fails, and word2vec and fastText files not if it fails before the end of what is read. (False for finalfusion files as stated: a failure within the norms gives embeddings without norms. Proved for the other formats and all chunks; for finalfusion files the norms are all that can be missing.)", "quantifier": "for all data, all positions, and all numbers of bytes delivered before the failure", "why_tests_cant": "A test would need a stream that fails after each number of bytes, for all data.", "anchors": ["src/util.rs: read_string, read_number", "src/compat/text.rs: read_embeds", "src/compat/floret/io.rs: read_floret_text", "src/compat/word2vec.rs: read_word2vec_binary_raw", "src/compat/fasttext/io.rs: read_fasttext_private", "src/embeddings.rs: read_embeddings"]}
{"id": "C104", "title": "Iterators can be used one call at a time", "statement": "Call number n of next gives element number n: n-gram number n in the order of the specification of C26, the subword number n with its indices, word number n with row n of the storage (and its norm, or one). From the number of elements on, every call gives None, however often next is called. Only the elements up to number n are computed: a row that is missing or an index that cannot be computed makes the calls from its own on panic, and none before.", "quantifier": "for all strings and lengths with 1 <= min_n <= max_n, all indexers, all embeddings, all numbers of calls", "why_tests_cant": "All numbers of calls on all inputs; tests collect the iterators as a whole.", "anchors": ["src/subword.rs: NGrams::next, NGramsIndicesIter::next", "src/embeddings.rs: Iter::next, IterWithNorms::next"]}
{"id": "C105", "title": "Vocabularies are equal exactly if they were made from the same things", "statement": "For vocabularies from the constructors, `==` holds if and only if the words, the lengths of n-grams, the markers and the parameters of the indexer are the same: the exponent, the number of buckets, the number of hashes and the seed, the list of n-grams. For explicit n-grams with given indices the numbers do not matter, only which n-grams share one. Different kinds of vocabularies are never equal. `==` is an equivalence relation; equal vocabularies have the same words and lengths, give the same answer for every word and are written as the same bytes. Vocabularies that were read, from whatever data, are equal if and only if they are written as the same bytes.", "quantifier": "for all word lists, markers, lengths, indexer parameters, n-gram lists and indices; for all data read", "why_tests_cant": "Pairs of arbitrary vocabularies; the comparison goes through hash maps and masks derived from what is stored.", "anchors": ["src/chunks/vocab/simple.rs: PartialEq for SimpleVocab", "src/chunks/vocab/subword.rs: PartialEq for SubwordVocab", "src/chunks/vocab/wrappers.rs: PartialEq for VocabWrap", "src/subword.rs: PartialEq for HashIndexer, ExplicitIndexer"]}
{"id": "C106", "title": "Accepted data costs exactly the memory that its content needs", "statement": "When a reader accepts its data, the heap requests whose size is taken from the data are a function of the result: each table of words (24 bytes per word), string, table of n-grams (32 bytes per n-gram), matrix (4 bytes per component, one per code) and list of norms is requested once, in the order of the data, with the size that it has in the end. For a complete file these are, in order, the header, the text of the metadata if there is any, the vocabulary, the storage and the norms; the only other requests are those of an attempt to read norms that fails. Mapped matrices and codes are not requested. The word2vec, fastText, text and floret readers request the table of words (not floret) and the matrix.", "quantifier": "for all data that is accepted, all kinds of chunks, all positions", "why_tests_cant": "All data that is accepted; requests are not visible in results.", "anchors": ["src/chunks/vocab/mod.rs: read_string, read_vocab_items", "src/chunks/vocab/subword.rs: read_ngrams_with_indices", "src/chunks/storage/array.rs: read_chunk", "src/chunks/storage/quantized.rs: read_product_quantizer, read_chunk, mmap_chunk", "src/chunks/norms.rs: read_chunk", "src/embeddings.rs: read_embeddings", "src/compat: readers"]}
{"id": "C107", "title": "Damage in one place of a file changes only what is stored there", "statement": "The numbers of the matrix, the codes, the norms and each word of an accepted file have a place in it. However the numbers, the codes or the norms are changed within their place, the file is still accepted: the shape, the metadata and all other parts are the same, row i (norm i) is what its part of the place contains now, and the vectors of words that are not computed from a changed row are the same. If the bytes of a word become those of a word of the same length that the vocabulary does not contain otherwise, the file is accepted with that word in its place, and with the same rows. The length stored at the beginning of a vocabulary, storage or norms chunk is not used: with any other value the chunk is accepted with the same result.", "quantifier": "for all accepted files, all positions, all kinds of vocabularies, all bytes put in the place", "why_tests_cant": "All files and all changes of their bytes.", "anchors": ["src/embeddings.rs: read_embeddings, embedding", "src/chunks/storage/array.rs: read_chunk", "src/chunks/storage/quantized.rs: read_chunk", "src/chunks/storage/wrappers.rs: read_chunk", "src/chunks/norms.rs: read_chunk", "src/chunks/vocab/mod.rs: read_vocab_items", "src/chunks/vocab/wrappers.rs: read_chunk"]}
{"id": "C108", "title": "An incomplete file is refused with the name of the field in which it ends", "statement": "A file that a reader accepts consists of fields that it reads one after the other. If the file is cut anywhere, the error is a read error with the description of the first field that is not complete (for the markers of a floret vocabulary, in the context of that marker), and nothing else; a cut in skipped padding is noticed in the next field. If all fields before the norms are complete, the file is accepted, with the norms exactly if they are complete. If the storage is mapped, the same holds for everything before the mapped region; a cut within that region is not noticed: the file is accepted, with the region over the shorter file and without norms. The messages change nothing else: kind of error and result are always those of the other properties.", "quantifier": "for all data, all positions, all kinds of vocabularies and storages, all cuts", "why_tests_cant": "All accepted files and all cuts; the place of each field depends on the contents of all fields before it.", "anchors": ["src/error.rs: Error, read_error, context", "src/chunks/io.rs: Header::read_chunk, ensure_chunk_type, ensure_data_type", "src/chunks/vocab/mod.rs: read_string, read_vocab_items", "src/chunks/vocab/simple.rs: read_chunk", "src/chunks/vocab/subword.rs: read_bucketed_chunk, read_ngram_chunk, read_floret_chunk, read_ngrams_with_indices", "src/chunks/vocab/wrappers.rs: read_chunk", "src/chunks/storage/array.rs: read_chunk, mmap_chunk", "src/chunks/storage/quantized.rs: read_chunk, mmap_chunk, read_product_quantizer", "src/chunks/storage/wrappers.rs: read_chunk, mmap_chunk", "src/chunks/norms.rs: read_chunk", "src/chunks/metadata.rs: read_chunk, read_metadata", "src/embeddings.rs: read_embeddings, mmap_embeddings"]}
{"id": "C109", "title": "Messages about contents that are not accepted say what was expected and what was found", "statement": "When a reader of the finalfusion format refuses the contents of a field, the message is about that field: an unknown chunk identifier, version, magic, number of hashes or type of values is quoted as it is in the file; for a chunk of another kind or values of another type the message has what was expected and what was found, in these roles, and names all kinds that the reader accepts; lengths that do not fit each other are quoted in their roles; bytes that are not text and metadata that is not TOML are reported as such.", "quantifier": "for all data and all positions", "why_tests_cant": "All data.", "anchors": ["src/error.rs: Error", "src/chunks/io.rs: ensure_chunk_type, ensure_data_type, Display for ChunkIdentifier, Header::read_chunk", "src/chunks/vocab/mod.rs: read_string", "src/chunks/vocab/subword.rs: read_floret_chunk", "src/chunks/vocab/wrappers.rs: read_chunk", "src/chunks/storage/quantized.rs: check_quantizer_invariants, read_product_quantizer", "src/chunks/storage/wrappers.rs: read_chunk, mmap_chunk", "src/chunks/metadata.rs: read_chunk, read_metadata"]}
{"id": "C110", "title": "An incomplete fastText or word2vec file is refused with the name of a field", "statement": "A fastText or word2vec file that a reader accepts consists of fields. If it is cut (for word2vec: anywhere behind its first line, and with at least one component per word), it is refused. The error is a read error with the description of the first field that is not complete. A word has no length, so a cut in a word cannot be seen as such: the error then has the description of the field behind the word (frequency or vector), or, for the readers that are not lossy, says that the word without its last byte is not UTF-8 if that is so. The messages change nothing else: kind of error and result are always those of the other properties.", "quantifier": "for all data, all positions, all cuts, both the lossy and the strict readers", "why_tests_cant": "All accepted files and all cuts; the place of each field depends on the contents of all fields before it.", "anchors": ["src/error.rs: Error, read_error", "src/util.rs: read_string, read_number", "src/compat/fasttext/io.rs: read_fasttext_private, Config::read, Loss::read, Model::read, read_vocab, read_embeddings", "src/compat/word2vec.rs: read_word2vec_binary_raw, read_word2vec_binary"]}
{"id": "C111", "title": "Messages of the readers of other formats are about the first thing that is wrong", "statement": "Each error of a reader of text, word2vec, floret or fastText files names its cause. Text, word2vec and floret: the readers return an error exactly if the data has one of these defects, checked in this order, and the error is that of the first defect. First line: a token that is not UTF-8, or is not an unsigned decimal number of 64 bits (quoted). floret parameters: no bucket, no component, minimal n-gram length above the maximal one (both quoted), number of hashes other than 1 to 4 (quoted); these n-gram lengths and the number of hashes are taken modulo 2^32. Lines: not UTF-8 (not for lossy readers), empty, a component that is not a number (the first is quoted), for floret another number of components than announced (both quoted). Shape: number of words or of components per word other than announced (both quoted), lines of different lengths. word2vec: a word that is not UTF-8, vectors that end too early. fastText: the first wrong field of magic, version, loss, model, labels, pruning is named and quoted; then the first entry that is not UTF-8 or not a word; then quantization; then the shape of the matrix; then metadata that cannot be serialized.", "quantifier": "for all data and positions, lossy and strict readers; for fastText models: whatever follows the defect; the claims about quantization, shape and metadata for vocabularies that can be built (C53)", "why_tests_cant": "All data; the order of defects matters and there are infinitely many combinations.", "anchors": ["src/util.rs: read_number, read_string", "src/compat/text.rs: read_embeds, read_text, read_text_dims", "src/compat/word2vec.rs: read_word2vec_binary", "src/compat/floret/io.rs: read_floret_text", "src/compat/fasttext/io.rs: read_fasttext_private, Config::read, Loss::read, Model::read, read_vocab"]}
{"id": "C112", "title": "A failure of the sink is reported as a write error that names the field", "statement": "If the sink accepts only the first n bytes of what is written, then the writer hands these n bytes over and returns a write error with the description of the field that contains byte n; if the sink accepts all bytes, the writer succeeds. For header, metadata, all vocabularies, all storages, norms and whole finalfusion files, word2vec, text, text with dimensions, floret and fastText files. If the sink cannot tell its position, that is a write error too.", "quantifier": "for all embeddings that the writer accepts, all n, all positions of the sink", "why_tests_cant": "Each byte of each file is another point of failure; tests write to sinks that do not fail.", "anchors": ["src/chunks/io.rs: Header::write_chunk", "src/chunks/metadata.rs: write_chunk", "src/chunks/vocab/mod.rs: write_string", "src/chunks/vocab/simple.rs: write_chunk", "src/chunks/vocab/subword.rs: write_bucketed_chunk, write_ngram_chunk, write_floret_chunk", "src/chunks/storage/array.rs: write_ndarray_chunk", "src/chunks/storage/quantized.rs: write_chunk", "src/chunks/norms.rs: write_chunk", "src/embeddings.rs: write_embeddings", "src/compat/word2vec.rs: write_word2vec_binary", "src/compat/text.rs: write_text, write_text_dims", "src/compat/floret/io.rs: write_floret_text", "src/compat/fasttext/io.rs: write_fasttext"]}
{"id": "C113", "title": "Refused conversions and quantizations name what was refused", "statement": "try_to_explicit returns an error exactly for embeddings with simple, explicit or floret vocabularies, and the error names the vocabulary and the type \"ExplicitVocab\"; embeddings with other vocabularies are never refused. The conversion of a vocabulary with any indexer returns an error exactly if an n-gram of a word has more than one index, and the text says so. quantize_using refuses a number of bits exactly if it is above the largest possible one (at most eight, and not more codes than vectors), and the error carries this largest number; every other error is one of the trainer.", "quantifier": "for all embeddings and storages, all indexers, all numbers of bits, all trainers", "why_tests_cant": "Which argument is refused with which number depends on the number of vectors and of bits; tests have few of both.", "anchors": ["src/embeddings.rs: try_to_explicit, to_explicit", "src/chunks/vocab/subword.rs: to_explicit", "src/chunks/storage/quantized.rs: quantize_using", "src/error.rs: ConversionError, Error::Quantization"]}
{"id": "C114", "title": "Embeddings stay usable through any sequence of operations", "statement": "Start from embeddings made by new, or read from a word2vec, text, fastText or floret file with usable n-gram settings. Replace the metadata, write them and read or map the file again, convert them to explicit n-grams and quantize them, any number of times and in any order. Then the sizes of vocabulary, storage and norms still agree, the words and their order and the number of components are those of the start, no lookup of any word panics, and writing, reading, mapping and setting metadata never fail. Without quantization the index, the vector and the norm of each word of the vocabulary are bit for bit those of the start. Without conversions either, and with the standard word markers, this holds for all words, known or not. Floret vocabularies with words are excluded (files lose them, C10), and sizes must fit the fields of the format.", "quantifier": "for all embeddings, all sequences of operations, all words, all positions of the file in its stream", "why_tests_cant": "A defect that only shows after a particular sequence (map, convert, write, read) needs a test of that sequence; there are infinitely many.", "anchors": ["src/embeddings.rs: new, set_metadata, write_embeddings, read_embeddings, mmap_embeddings, try_to_explicit, quantize_using, embedding, embedding_with_norm", "src/compat/word2vec.rs: ReadWord2Vec", "src/compat/text.rs: ReadText, ReadTextDims", "src/compat/fasttext/io.rs: ReadFastText", "src/compat/floret/io.rs: ReadFloretText"]}
{"id": "C115", "title": "Truncated text files without a first line", "statement": "All lines of a text file without a first line have the same positive number of components, and only the beginning of the file is there. Reading it fails with an error, or gives the first words of the file with their vectors, except that the last component of the last vector may differ; it does not panic. If the file ends behind a line, with or without its line break, then the lines that are there are read completely.", "quantifier": "for all accepted text files, strict and lossy readers, and all points at which the file is cut off", "why_tests_cant": "The point of the cut, the number of lines left and the number of components decide together; tests try a few cuts of one file.", "anchors": ["src/compat/text.rs: ReadTextRaw, ReadTextPriv::read_embeds"]}
{"id": "C116", "title": "Vectors do not depend on the other words", "statement": "Two embeddings with the same n-gram settings store the same vector and norm for each word that they have in common, and the same vectors of n-grams; their words may be in another order, and each may have words that the other does not have. Then embedding, embedding_with_norm and embedding_into give the same for every word that is in both vocabularies or in none. If they have the same words, this is still so after both are converted to explicit n-grams. A similarity query for a vector gives the same results with more words in the vocabulary if those are skipped, also if the words are in another order.", "quantifier": "for all embeddings with or without subwords (all indexers, all storages), all words, all hash map orders, all queries, limits and batch sizes other than zero", "why_tests_cant": "Rows of n-grams come behind the rows of words, so that each index of an n-gram depends on the number of words; tests use one vocabulary.", "anchors": ["src/embeddings.rs: Embeddings::embedding, embedding_into, embedding_with_norm, to_explicit_impl", "src/chunks/vocab/subword.rs: SubwordVocab::idx, subword_indices", "src/similarity.rs: similarity_"]}
{"id": "C117", "title": "The scale of vectors does not matter", "statement": "Multiplying vectors by powers of two changes nothing but the norms. (a) If every component of a vector is zero or at least 2^-63 in magnitude and the length of the larger vector does not overflow, then a vector and its product with a power of two are normalised to the same bits, and the computed lengths differ by exactly that power of two. (b) embedding_similarity and embedding_similarity_masked give the same results, bit by bit, for both as queries. (c) Two word2vec or text files with the same words and vectors that differ by powers of two, one for each vector, give the same vocabulary and the same storage when they are read with normalisation; the norms differ by the powers of two. (d) If the vectors of all n-grams of an unknown word are multiplied by the same power of two, its vector stays the same, bit by bit, and its norm is multiplied by the power of two. (e) Without rounding, (a) holds for every positive factor and every vector.", "quantifier": "for all vectors, powers of two, embeddings, vocabularies and storages, all words, limits, masks and batch sizes, all files", "why_tests_cant": "Rounding of sums of squares, square roots and quotients must commute with the factor for every vector; tests compare a few vectors, and only up to a tolerance.", "anchors": ["src/util.rs: l2_normalize, l2_normalize_array", "src/embeddings.rs: Embeddings::embedding, embedding_with_norm", "src/similarity.rs: embedding_similarity_masked", "src/compat/word2vec.rs: read_word2vec_binary", "src/compat/text.rs: read_text, read_text_dims"]}
{"id": "C118", "title": "Symmetries of similarities and analogies", "statement": "With embeddings whose words have the rows of the matrix as vectors: (a) If b is among the results of word_similarity for a, and a among those for b, then with the same similarity, bit by bit, whatever the limits and batch sizes; if the limits are not below the number of words, each of two different words is in the results for the other one. (b) If the length of a query does not overflow, the finite similarity of a word to the opposite query is the opposite number. (c) The answers to a query do not depend on the signs of zeros in it. (d) The answer to 'a is to a as c is to' is the answer to the query for the vector of c, with the same words skipped, bit by bit, if the vectors of a and c are finite. (e) Without rounding, 'a is to b as c is to' and 'a is to c as b is to' have the same answers; with rounding they may have different similarities. (f) The condition on the words holds for every vocabulary made by the constructors, with and without subwords.", "quantifier": "for all embeddings, words, queries, limits, masks and batch sizes", "why_tests_cant": "The claim relates the answers to two different queries, for all words; tests check single answers against recorded ones.", "anchors": ["src/similarity.rs: similarity_, word_similarity, embedding_similarity_masked, analogy_masked", "src/util.rs: l2_normalize", "src/embeddings.rs: Embeddings::embedding"]}
{"id": "C119", "title": "Line endings and white space of text files", "statement": "A text file, a text file with dimensions or a floret file means the same with line feeds and with carriage returns and line feeds at the ends of its lines, with other ASCII white space between, before and after the columns, and with or without the last line break: if one of the variants is read as embeddings, so is the other, with the same words, parameters and vectors, and if one is rejected, so is the other.", "quantifier": "for all files, positions in them, and the strict and lossy readers with and without normalisation", "why_tests_cant": "The claim compares the outcomes for two files, for all contents including invalid UTF-8; tests read one file with one kind of line ends.", "anchors": ["src/compat/text.rs: read_text_*, read_text_dims_*, read_embeds", "src/compat/floret/io.rs: read_floret_text", "src/util.rs: read_number, read_string"]}
{"id": "C120", "title": "The way in which a stream delivers its data does not matter", "statement": "Reading does not depend on how the stream delivers its data: in pieces of any size, with interruptions (ErrorKind::Interrupted) in between, with or without a BufReader of any capacity around it. Every reader of chunks, of whole finalfusion files (in memory and with mapped storages), and of word2vec, fastText, text and floret files ends on every stream that is not interrupted forever, with the value or error that it has for the same bytes in memory, and (for chunks, word2vec and fastText) the stream is at the same position afterwards.", "quantifier": "for all readers, bytes, positions, sequences of answers of the stream (amounts and interruptions), contents of the buffer and capacities (not zero where BufRead is needed)", "why_tests_cant": "A test reads from a file or a slice, which deliver everything that is asked for; the sequences of partial deliveries are unbounded, and errors in this area (a read instead of read_exact, a position that forgets the buffer) do not show with small files.", "anchors": ["src/embeddings.rs: read_embeddings, mmap_embeddings", "src/chunks/*: read_chunk, mmap_chunk", "src/util.rs: read_string, read_number", "src/compat/*: readers"]}
{"id": "C121", "title": "Success means that the sink has everything", "statement": "If a writer reports success, then the sink has received every byte of the file, in order and once, however much it accepts with each call of write and however often it is interrupted, with or without a BufWriter in front of it. If the sink fails, the writer reports the error of the field that was not accepted, and the sink has the beginning of the file. A sink that does not fail and is not interrupted forever gets the whole file.", "quantifier": "for all embeddings, all formats (finalfusion with stored and viewed matrices, word2vec, text with and without dimensions, floret, fastText), sequences of answers of the sink, and capacities of the buffer", "why_tests_cant": "Tests write to a vector or a file, which accept everything at once, and do not look at the sink before the buffer is dropped; the sequences of partial writes are unbounded.", "anchors": ["src/embeddings.rs: write_embeddings", "src/chunks/*: write_chunk", "src/compat/*: writers"]}
{"id": "C122", "title": "Concatenated text files", "statement": "If two text files are read as embeddings with the same number of dimensions and have no common word, and the first ends with a line feed, then the file that consists of the first followed by the second is read as the words and vectors (and norms) of the first followed by those of the second. If they have a common word or different numbers of dimensions, or if one of them has a line that is no line of a text file, the combined file is refused with an error. Whatever follows an accepted text file with dimensions or floret file that ends with a line feed is refused with an error.", "quantifier": "for all pairs of files, strict and lossy decoding, raw and normalising readers", "why_tests_cant": "Tests read a few fixed files; the property relates three runs of the reader over all pairs of files.", "anchors": ["src/compat/text.rs: read_text, read_text_raw, read_text_dims, read_text_dims_raw, read_embeds", "src/compat/floret/io.rs: read_floret_text"]}
{"id": "C123", "title": "The order of the lines of text files and of the records of word2vec files", "statement": "If the lines of a text file are put into another order, then the file is accepted, refused or lets the reader panic as before. If it is accepted and all lines have the same number of components, then the embeddings have the same words and the same answers for all words (vectors, norms), similarity queries and analogies; only the positions of the words differ. The same holds for the lines after the first line of a text file with dimensions. A word2vec file (with at least one component per word) that is accepted is accepted with its records in any order, as much is read, and the embeddings have the same words and the same answers. The lines of a floret file begin with the numbers of their buckets: with the lines in another order the file is read as the same embeddings, or is refused.", "quantifier": "for all files, orders of the lines, words, query vectors, limits and batch sizes; strict and lossy decoding, raw and normalising readers", "why_tests_cant": "Tests read one order; the property relates all orders of all files, and the results of queries with ties.", "anchors": ["src/compat/text.rs: read_text, read_text_raw, read_text_dims, read_text_dims_raw, read_embeds", "src/compat/floret/io.rs: read_floret_text", "src/similarity.rs: similarity_"]}
{"id": "C124", "title": "Searching the parts of embeddings", "statement": "If the words of some embeddings, with their vectors, are divided among two others, then a query for a vector (with words to skip) succeeds on the whole exactly if it succeeds on both parts, with any batch sizes other than zero, and panics otherwise. With a limit of at least one its results are the best of the results of the two parts, up to the limit, in the same ranking; those that are words of a part are among the results of the part, with the same similarity. Two text files without a common word are the parts of the file in which one follows the other. The query for a word is the query for its vector without that word, if normalising the vector does not change it.", "quantifier": "for all embeddings (any vocabularies and storages), divisions of their words, query vectors, words to skip, limits and batch sizes", "why_tests_cant": "Tests search one table; the property relates searches of all tables and all divisions, including ties at the limit.", "anchors": ["src/similarity.rs: similarity_, embedding_similarity_masked, word_similarity", "src/compat/text.rs: read_text, read_text_raw"]}
{"id": "C125", "title": "Files of one format are refused by the readers of another", "statement": "A file written in one of the formats (finalfusion, fastText, word2vec, text with dimensions, text without, floret) is refused with an error, not a panic, by the readers of each of the other formats. In particular data that does not begin with the magic number of finalfusion or of fastText is refused by the readers of that format, data that begins with neither a digit nor a plus sign is refused by the readers of word2vec, text with dimensions and floret, and the readers of these three tell floret files from the others by the number of fields of the first line.", "quantifier": "for all embeddings, with any vocabulary, storage and norms, written by one of the writers, and for all byte sequences in the part about the beginning of the data", "why_tests_cant": "Tests read files with the reader they are for; the property is about all pairs of formats and all contents, in which the deciding bytes depend on numbers, words and components.", "anchors": ["src/chunks/io.rs: Header", "src/compat/fasttext/io.rs: read_fasttext_private, write_fasttext", "src/compat/word2vec.rs: read_word2vec_binary_raw, write_word2vec_binary", "src/compat/text.rs: read_text_dims_raw, read_embeds, write_text, write_text_dims", "src/compat/floret/io.rs: read_floret_text, write_floret_text", "src/util.rs: read_number"]}
{"id": "C126", "title": "The first line of a text file with dimensions is only a check", "statement": "Let a file be a first line with two numbers n and k, followed by other data. If a reader of text files with dimensions accepts the file, then the corresponding reader of text files without dimensions accepts the rest, with the same result, and the result has n words with k components. Conversely, if the rest is accepted, then the file is accepted with the same result if it has n words with k components, and refused with a format error otherwise; if the rest is refused, the file is refused; and the reader panics only if the other reader panics on the rest. (The converse is for n and k for which the memory can be reserved.) The writer of text files with dimensions writes such a first line and then the text file.", "quantifier": "for all numbers (with or without a plus sign and leading zeros), all data, the strict and lossy, raw and normalising readers, and all embeddings for the writer", "why_tests_cant": "Tests have a few files with a correct first line; the property relates two readers on all data, also malformed, and all promised shapes.", "anchors": ["src/compat/text.rs: read_text_dims, read_text_dims_raw, read_text, read_text_raw, read_embeds, write_text_dims, write_text", "src/util.rs: read_number"]}
{"id": "C127", "title": "The format in which embeddings are exchanged does not matter", "statement": "Write embeddings as a word2vec file, as a text file, and as a text file with dimensions, with the same choice of un-normalising, and read the files: all readers (strict or lossy) give one and the same embeddings, with the words in order and the written vectors bit by bit; and all readers that normalise give one and the same embeddings, with the normalised vectors and their norms. Once written and read, any chain of further conversions between these formats (with or without un-normalising, strict or lossy, raw) and the finalfusion format changes nothing (for the finalfusion format: fewer than 2^32 dimensions, and words with fewer than 2^32 bytes). The conditions: at least one word; words that are not empty, contain no ASCII white space and do not begin or end with white space; no NaN among the written components; sizes for which memory can be reserved. Without the conditions the formats differ: on NaNs, on words with tabulators, and without words.", "quantifier": "for all embeddings in single precision (any vocabulary and storage) that meet the conditions, both choices of un-normalising, all three formats, strict and lossy readers, and all chains of conversions", "why_tests_cant": "Tests convert one small file once per format; the property needs every float to survive decimal notation, and is about all words, all vectors and chains of any length.", "anchors": ["src/compat/word2vec.rs: read_word2vec_binary, read_word2vec_binary_lossy, read_word2vec_binary_raw, write_word2vec_binary", "src/compat/text.rs: read_text, read_text_raw, read_text_dims, read_text_dims_raw, write_text, write_text_dims"]}
