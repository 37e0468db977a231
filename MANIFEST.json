{
 "claims": [
  {
   "property": "C01",
   "status": "proved",
   "theorems": [
    "FF.c01_header",
    "FF.c01_header_id_refused"
   ],
   "note": ""
  },
  {
   "property": "C02",
   "status": "proved",
   "theorems": [
    "FF.c02_magic",
    "FF.c02_version",
    "FF.c02_chunk_types",
    "FF.c02_array_type",
    "FF.c02_norms_type",
    "FF.c02_quantized_type"
   ],
   "note": ""
  },
  {
   "property": "C03",
   "status": "proved",
   "theorems": [
    "FF.c03_array",
    "FF.c03_norms",
    "FF.c03_quantized"
   ],
   "note": ""
  },
  {
   "property": "C04",
   "status": "proved",
   "theorems": [
    "FF.c04_simple",
    "FF.c04_bucket",
    "FF.c04_fasttext",
    "FF.c04_explicit",
    "FF.c04_floret"
   ],
   "note": ""
  },
  {
   "property": "C05",
   "status": "proved",
   "theorems": [
    "FF.c05_array",
    "FF.c05_norms",
    "FF.c05_quantized",
    "FF.c05_metadata",
    "FF.c05_mmap_array"
   ],
   "note": ""
  },
  {
   "property": "C06",
   "status": "proved",
   "theorems": [
    "FF.c06_write_len",
    "FF.c06_wrap"
   ],
   "note": ""
  },
  {
   "property": "C07",
   "status": "proved",
   "theorems": [
    "FF.c07_simple"
   ],
   "note": ""
  },
  {
   "property": "C08",
   "status": "partial",
   "theorems": [
    "FF.c08_bucket_partial",
    "FF.c08_fasttext_partial",
    "FF.c08_bucket_exact_partial",
    "FF.c08_fasttext_exact_partial",
    "FF.c08_markers_lost"
   ],
   "note": "False for non-default boundary markers (not stored); proved for the default ones, and that exactly these survive (what comes back otherwise: C68)."
  },
  {
   "property": "C09",
   "status": "partial",
   "theorems": [
    "FF.c09_explicit_partial",
    "FF.c09_explicit_exact_partial",
    "FF.c09_markers_lost"
   ],
   "note": "False for non-default boundary markers (not stored); proved for the default ones, and that exactly these survive (what comes back otherwise: C68)."
  },
  {
   "property": "C10",
   "status": "partial",
   "theorems": [
    "FF.c10_floret_partial",
    "FF.c10_floret_exact_partial",
    "FF.c10_words_lost"
   ],
   "note": "False for vocabularies with words (not stored); proved for word-less ones, and that exactly these survive (what comes back otherwise: C68)."
  },
  {
   "property": "C100",
   "status": "proved",
   "theorems": [
    "FF.c100_code_points",
    "FF.c100_compare",
    "FF.c100_total",
    "FF.c100_results"
   ],
   "note": ""
  },
  {
   "property": "C101",
   "status": "proved",
   "theorems": [
    "FF.c101_infallible"
   ],
   "note": ""
  },
  {
   "property": "C102",
   "status": "partial",
   "theorems": [
    "FF.MRd.c102_false",
    "FF.MRd.c102_chunks_partial",
    "FF.MRd.c102_formats_partial",
    "FF.MRd.c102_files_partial"
   ],
   "note": "False as stated: damaged norms are ignored after memory was requested for them, and rejected data costs the memory it announces (c102_false). Proved: the bound for accepted chunks, accepted files in all formats (finalfusion files if they have norms, otherwise for all requests but one), and for all data the bound for all requests but two."
  },
  {
   "property": "C103",
   "status": "partial",
   "theorems": [
    "FF.Failing.c103_false",
    "FF.Failing.c103_word2vec_raw",
    "FF.Failing.c103_word2vec",
    "FF.Failing.c103_fasttext",
    "FF.Failing.c103_text_raw",
    "FF.Failing.c103_text",
    "FF.Failing.c103_text_dims_raw",
    "FF.Failing.c103_text_dims",
    "FF.Failing.c103_floret",
    "FF.Failing.c103_chunks",
    "FF.Failing.c103_finalfusion_partial"
   ],
   "note": "False as stated for finalfusion files: a failure of the stream within the norms is taken for their absence (c103_false). Proved: the statement for all other formats and for all chunks; for finalfusion files the outcome on a failing stream is an I/O error, the outcome without failure, or the embeddings without their norms."
  },
  {
   "property": "C104",
   "status": "proved",
   "theorems": [
    "FF.c104_ngrams",
    "FF.c104_indices",
    "FF.c104_iter",
    "FF.c104_iter_with_norms",
    "FF.c104_used_up"
   ],
   "note": ""
  },
  {
   "property": "C105",
   "status": "proved",
   "theorems": [
    "FF.c105_map",
    "FF.c105_simple",
    "FF.c105_bucket",
    "FF.c105_fasttext",
    "FF.c105_floret",
    "FF.c105_explicit",
    "FF.c105_explicit_new",
    "FF.c105_read_made",
    "FF.c105_made",
    "FF.c105_equivalence",
    "FF.c105_same_answers",
    "FF.c105_bytes"
   ],
   "note": ""
  },
  {
   "property": "C106",
   "status": "proved",
   "theorems": [
    "FF.MRd.c106_chunks",
    "FF.MRd.c106_formats",
    "FF.MRd.c106_files"
   ],
   "note": ""
  },
  {
   "property": "C107",
   "status": "proved",
   "theorems": [
    "FF.c107_matrix",
    "FF.c107_wrapped_matrix",
    "FF.c107_codes",
    "FF.c107_wrapped_codes",
    "FF.c107_norms",
    "FF.c107_word",
    "FF.c107_lookup",
    "FF.c107_length"
   ],
   "note": ""
  },
  {
   "property": "C108",
   "status": "proved",
   "theorems": [
    "FF.c108_header",
    "FF.c108_metadata",
    "FF.c108_simple",
    "FF.c108_bucket",
    "FF.c108_fasttext",
    "FF.c108_explicit",
    "FF.c108_floret",
    "FF.c108_vocab",
    "FF.c108_array",
    "FF.c108_quantized",
    "FF.c108_norms",
    "FF.c108_storage",
    "FF.c108_storage_view",
    "FF.c108_file",
    "FF.c108_mmap_array",
    "FF.c108_mmap_quantized",
    "FF.c108_mmap_storage",
    "FF.c108_mmap_storage_view",
    "FF.c108_mmap_file"
   ],
   "note": ""
  },
  {
   "property": "C109",
   "status": "partial",
   "theorems": [
    "FF.c109_false",
    "FF.c109_lengths_false",
    "FF.c109_mmap_storage_false",
    "FF.c109_identifiers_partial",
    "FF.c109_display_partial",
    "FF.c109_choices_partial",
    "FF.c109_header_partial",
    "FF.c109_empty_partial",
    "FF.c109_types_partial",
    "FF.c109_quantized_types_partial",
    "FF.c109_hashes_partial",
    "FF.c109_text_partial",
    "FF.c109_toml_partial",
    "FF.c109_map_partial"
   ],
   "note": "False as stated: the lengths of a quantized matrix are always quoted in each other's place, the mapped storage names one of the two kinds that it accepts, and the number of centroids is called number of subquantizers. All other messages are as stated."
  },
  {
   "property": "C11",
   "status": "proved",
   "theorems": [
    "FF.c11_array",
    "FF.c11_wide_false"
   ],
   "note": "For fewer than 2^32 columns (the file format has 32 bits for them)."
  },
  {
   "property": "C110",
   "status": "proved",
   "theorems": [
    "FF.c110_fasttext",
    "FF.c110_word2vec"
   ],
   "note": ""
  },
  {
   "property": "C111",
   "status": "proved",
   "theorems": [
    "FF.c111_text",
    "FF.c111_text_dims",
    "FF.c111_number",
    "FF.c111_word2vec",
    "FF.c111_floret",
    "FF.c111_fasttext_head",
    "FF.FtHead.complaint_none",
    "FF.c111_fasttext_entry",
    "FF.c111_fasttext_quantized",
    "FF.c111_fasttext_end"
   ],
   "note": ""
  },
  {
   "property": "C112",
   "status": "partial",
   "theorems": [
    "FF.c112_false",
    "FF.c112_header",
    "FF.c112_metadata",
    "FF.c112_vocab",
    "FF.c112_storage_partial",
    "FF.c112_view_partial",
    "FF.c112_norms_partial",
    "FF.c112_file_partial",
    "FF.c112_view_file_partial",
    "FF.c112_position_simple",
    "FF.c112_position_array",
    "FF.c112_position_quantized",
    "FF.c112_position_norms",
    "FF.c112_word2vec",
    "FF.c112_text",
    "FF.c112_text_dims",
    "FF.c112_floret",
    "FF.c112_fasttext_partial"
   ],
   "note": "False as stated: the entry type of a fastText word and some failures to get a position are read errors, and the fastText model type is described as loss function. Proved: the exact error for each number of accepted bytes, for all formats."
  },
  {
   "property": "C113",
   "status": "proved",
   "theorems": [
    "FF.c113_try",
    "FF.c113_vocab",
    "FF.c113_text",
    "FF.c113_quantize"
   ],
   "note": "Trainers are parameters: c113_quantize assumes that view and quantize_batch return no errors, as their types say. c113_try assumes the same of the selection of rows; noErr_cloneWrap shows it for all storages."
  },
  {
   "property": "C114",
   "status": "proved",
   "theorems": [
    "FF.c114_new",
    "FF.c114_history",
    "FF.c114_vectors",
    "FF.c114_all_words",
    "FF.c114_lookups",
    "FF.c114_possible",
    "FF.c114_word2vec",
    "FF.c114_text",
    "FF.c114_fasttext",
    "FF.c114_floret"
   ],
   "note": "The TOML library is assumed to read back what it prints, for the metadata at hand. Trainers are parameters with the contract of C57."
  },
  {
   "property": "C115",
   "status": "partial",
   "theorems": [
    "FF.c115_false",
    "FF.c115_cut_partial",
    "FF.c115_line_end",
    "FF.c115_cut_norms_partial",
    "FF.c115_line_end_norms"
   ],
   "note": "False if few lines are left: the reader panics or returns other vectors (c115_false). Proved if more lines are left than there are components in a line."
  },
  {
   "property": "C116",
   "status": "proved",
   "theorems": [
    "FF.c116_simple",
    "FF.c116_subword",
    "FF.c116_explicit",
    "FF.c116_similarity"
   ],
   "note": ""
  },
  {
   "property": "C117",
   "status": "proved",
   "theorems": [
    "FF.Ieee.c117_normalize",
    "FF.Ieee.c117_query",
    "FF.Ieee.c117_readers",
    "FF.Ieee.c117_oov",
    "FF.Ieee.c117_small",
    "FF.c117_exact"
   ],
   "note": "Sums in the order of ndarray without BLAS."
  },
  {
   "property": "C118",
   "status": "proved",
   "theorems": [
    "FF.Ieee.c118_symmetric",
    "FF.Ieee.c118_mutual",
    "FF.Ieee.c118_zeros",
    "FF.Ieee.c118_trivial",
    "FF.Ieee.c118_opposite",
    "FF.Ieee.c118_simple",
    "FF.Ieee.c118_subword",
    "FF.Ieee.c118_exchange_rounded",
    "FF.c118_exchange"
   ],
   "note": "Sums in the order of ndarray without BLAS."
  },
  {
   "property": "C119",
   "status": "partial",
   "theorems": [
    "FF.c119_text",
    "FF.c119_crlf_text",
    "FF.c119_text_dims_partial",
    "FF.c119_floret_partial",
    "FF.c119_crlf_dims",
    "FF.c119_spaces_dims",
    "FF.c119_crlf_floret",
    "FF.c119_false"
   ],
   "note": "False for the first lines of text files with dimensions and floret files; proved for text files and for all other lines."
  },
  {
   "property": "C12",
   "status": "proved",
   "theorems": [
    "FF.c12_quantized"
   ],
   "note": ""
  },
  {
   "property": "C120",
   "status": "proved",
   "theorems": [
    "FF.Pieces.c120_runs",
    "FF.Pieces.c120_chunks",
    "FF.Pieces.c120_storages",
    "FF.Pieces.c120_binary",
    "FF.Pieces.c120_text",
    "FF.Pieces.c120_finalfusion",
    "FF.Pieces.c120_programs",
    "FF.Pieces.c120_forever"
   ],
   "note": "For all streams, answers and capacities."
  },
  {
   "property": "C121",
   "status": "partial",
   "theorems": [
    "FF.Sinks.c121_direct",
    "FF.Sinks.c121_flush_partial",
    "FF.Sinks.c121_outcome",
    "FF.Sinks.c121_detected",
    "FF.Sinks.c121_norms",
    "FF.Sinks.c121_false"
   ],
   "note": "False with a BufWriter, because nothing is flushed; proved for sinks without a buffer and after a flush."
  },
  {
   "property": "C122",
   "status": "partial",
   "theorems": [
    "FF.c122_text",
    "FF.c122_text_normalized",
    "FF.c122_refused",
    "FF.c122_text_dims",
    "FF.c122_floret",
    "FF.c122_dims_partial",
    "FF.c122_common_panics",
    "FF.c122_outcomes",
    "FF.c122_false"
   ],
   "note": "False for common words (panic) and for different numbers of dimensions whose total fits (accepted with mixed-up vectors); exact outcomes proved."
  },
  {
   "property": "C123",
   "status": "partial",
   "theorems": [
    "FF.c123_text",
    "FF.c123_text_dims",
    "FF.c123_word2vec",
    "FF.c123_queries",
    "FF.c123_floret_partial",
    "FF.c123_false"
   ],
   "note": "Proved for text and word2vec files; false for floret files, whose line numbers are ignored."
  },
  {
   "property": "C124",
   "status": "proved",
   "theorems": [
    "FF.c124_outcome",
    "FF.c124_results",
    "FF.c124_word",
    "FF.c124_text"
   ],
   "note": ""
  },
  {
   "property": "C125",
   "status": "partial",
   "theorems": [
    "FF.c125_magic_fasttext",
    "FF.c125_magic_finalfusion",
    "FF.c125_number",
    "FF.c125_first_line",
    "FF.c125_finalfusion_partial",
    "FF.c125_fasttext_partial",
    "FF.c125_dims_partial",
    "FF.c125_floret_partial",
    "FF.c125_text_partial",
    "FF.c125_not_all",
    "FF.c125_not_text"
   ],
   "note": "False for the text readers in general, between word2vec and text with dimensions, and for text files whose first word is a number (witnesses c125_not_all, c125_not_text); proved for all other pairs of formats. For text files given to the finalfusion, word2vec, text-with-dimensions and floret readers there is a condition on the first word."
  },
  {
   "property": "C126",
   "status": "proved",
   "theorems": [
    "FF.c126_first_line",
    "FF.c126_norms",
    "FF.c126_written"
   ],
   "note": ""
  },
  {
   "property": "C127",
   "status": "proved",
   "theorems": [
    "FF.Ieee.c127_raw",
    "FF.Ieee.c127_normalized",
    "FF.Ieee.c127_chain",
    "FF.Ieee.c127_conditions"
   ],
   "note": ""
  },
  {
   "property": "C13",
   "status": "proved",
   "theorems": [
    "FF.c13_norms"
   ],
   "note": ""
  },
  {
   "property": "C14",
   "status": "proved",
   "theorems": [
    "FF.c14_metadata"
   ],
   "note": ""
  },
  {
   "property": "C15",
   "status": "proved",
   "theorems": [
    "FF.c15_round_trip",
    "FF.c15_wrap"
   ],
   "note": "Under stated size limits and the boundary-marker conditions of C08/C09."
  },
  {
   "property": "C16",
   "status": "proved",
   "theorems": [
    "FF.c16_vocab",
    "FF.c16_storage",
    "FF.c16_storage_view"
   ],
   "note": ""
  },
  {
   "property": "C17",
   "status": "proved",
   "theorems": [
    "FF.c17_truncated",
    "FF.c17_any"
   ],
   "note": ""
  },
  {
   "property": "C18",
   "status": "partial",
   "theorems": [
    "FF.c18_partial",
    "FF.c18_norms_false",
    "FF.c18_empty_false"
   ],
   "note": "False: cutting inside the norms, or inside the padding of an empty matrix, is not noticed. Proved for every cut before the end of the storage when the storage chunk does not end in padding."
  },
  {
   "property": "C19",
   "status": "proved",
   "theorems": [
    "FF.c19_failing_writer"
   ],
   "note": ""
  },
  {
   "property": "C20",
   "status": "proved",
   "theorems": [
    "FF.c20_read_metadata"
   ],
   "note": ""
  },
  {
   "property": "C21",
   "status": "proved",
   "theorems": [
    "FF.c21_array",
    "FF.c21_quantized",
    "FF.c21_wrap",
    "FF.c21_embeddings"
   ],
   "note": ""
  },
  {
   "property": "C22",
   "status": "proved",
   "theorems": [
    "FF.c22_simple",
    "FF.c22_subword"
   ],
   "note": ""
  },
  {
   "property": "C23",
   "status": "proved",
   "theorems": [
    "FF.c23_simple",
    "FF.c23_subword"
   ],
   "note": ""
  },
  {
   "property": "C24",
   "status": "proved",
   "theorems": [
    "FF.c24_simple",
    "FF.c24_bucket",
    "FF.c24_fasttext",
    "FF.c24_floret",
    "FF.c24_explicit"
   ],
   "note": ""
  },
  {
   "property": "C25",
   "status": "proved",
   "theorems": [
    "FF.c25_simple",
    "FF.c25_bucket",
    "FF.c25_fasttext",
    "FF.c25_floret",
    "FF.c25_explicit",
    "FF.c25_bad_range"
   ],
   "note": ""
  },
  {
   "property": "C26",
   "status": "proved",
   "theorems": [
    "FF.c26_ngrams",
    "FF.c26_multiplicity",
    "FF.c26_refused",
    "FF.c26_slice"
   ],
   "note": ""
  },
  {
   "property": "C27",
   "status": "partial",
   "theorems": [
    "FF.c27_ngrams_upper_bound_partial",
    "FF.c27_indices_upper_bound_partial",
    "FF.c27_lower_bound_false",
    "FF.c27_indices_upper_bound_false",
    "FF.c27_ngrams_exact",
    "FF.c27_indices_state",
    "FF.c27_indices_exact"
   ],
   "note": "The hint is an upper bound for n-gram iterators and substring-scope index iterators in every state. As a lower bound it is right for a fresh iterator exactly if the string is empty or only unigrams are asked for (c27_ngrams_exact); exactly then it is too low by one for floret (c27_indices_exact)."
  },
  {
   "property": "C28",
   "status": "partial",
   "theorems": [
    "FF.c28_index",
    "FF.c28_accepts",
    "FF.c28_eq",
    "FF.c28_upper_bound_partial",
    "FF.c28_upper_bound_64_false",
    "FF.c28_upper_bound_64_wrapping"
   ],
   "note": "upper_bound fails for exponent 64, everything else proved."
  },
  {
   "property": "C29",
   "status": "partial",
   "theorems": [
    "FF.c29_fasttext_partial",
    "FF.c29_fasttext_accepts",
    "FF.c29_fasttext_zero_buckets_false",
    "FF.c29_floret",
    "FF.c29_floret_accepts"
   ],
   "note": "fastText indexers with zero buckets are accepted and panic on lookup; everything else proved."
  },
  {
   "property": "C30",
   "status": "proved",
   "theorems": [
    "FF.c30_accepts",
    "FF.c30_renumbering"
   ],
   "note": ""
  },
  {
   "property": "C31",
   "status": "proved",
   "theorems": [
    "FF.c31_ngram_indices",
    "FF.c31_listing"
   ],
   "note": ""
  },
  {
   "property": "C32",
   "status": "proved",
   "theorems": [
    "FF.c32_known",
    "FF.c32_wrap",
    "FF.c32_bad_range",
    "FF.c32_multiple"
   ],
   "note": ""
  },
  {
   "property": "C33",
   "status": "partial",
   "theorems": [
    "FF.c33_unknown_partial",
    "FF.c33_markers_false"
   ],
   "note": "False for other boundary markers than < and >; proved for these."
  },
  {
   "property": "C34",
   "status": "proved",
   "theorems": [
    "FF.c34_into",
    "FF.c34_wrong_length"
   ],
   "note": ""
  },
  {
   "property": "C35",
   "status": "proved",
   "theorems": [
    "FF.c35_batch",
    "FF.c35_batch_into",
    "FF.c35_fails"
   ],
   "note": ""
  },
  {
   "property": "C36",
   "status": "proved",
   "theorems": [
    "FF.c36_new",
    "FF.c36_no_panic",
    "FF.c36_wrap"
   ],
   "note": ""
  },
  {
   "property": "C37",
   "status": "partial",
   "theorems": [
    "FF.c37_false",
    "FF.c37_partial"
   ],
   "note": "False: read_embeddings checks neither the number of rows nor the number of norms."
  },
  {
   "property": "C38",
   "status": "proved",
   "theorems": [
    "FF.c38_norm",
    "FF.c38_zero",
    "FF.c38_unit",
    "FF.c38_restore",
    "FF.c38_array",
    "FF.c38_oov",
    "FF.c38_readers",
    "FF.c38_fasttext"
   ],
   "note": "Exact arithmetic (real numbers)."
  },
  {
   "property": "C39",
   "status": "proved",
   "theorems": [
    "FF.c39_with_norm",
    "FF.c39_with_norm_ok",
    "FF.c39_unnormalized",
    "FF.c39_iter"
   ],
   "note": ""
  },
  {
   "property": "C40",
   "status": "proved",
   "theorems": [
    "FF.c40_iter",
    "FF.c40_total"
   ],
   "note": ""
  },
  {
   "property": "C41",
   "status": "proved",
   "theorems": [
    "FF.c41_word",
    "FF.c41_unknown",
    "FF.c41_embedding",
    "FF.c45_vector",
    "FF.TopResults.unique",
    "FF.queryOk_of_new",
    "FF.c41_compare"
   ],
   "note": ""
  },
  {
   "property": "C42",
   "status": "proved",
   "theorems": [
    "FF.c42"
   ],
   "note": ""
  },
  {
   "property": "C43",
   "status": "partial",
   "theorems": [
    "FF.c43_partial",
    "FF.similarity_ok_iff",
    "FF.c43_limit_zero",
    "FF.c43_batch_zero",
    "FF.c43_no_words",
    "FF.c43_huge_limit"
   ],
   "note": "False for limit 0, batch size 0, no words with the default batch size and very large limits; similarity_ok_iff says exactly when a query succeeds."
  },
  {
   "property": "C44",
   "status": "proved",
   "theorems": [
    "FF.c44_word",
    "FF.c44_masked",
    "FF.c44_analogy",
    "FF.c44_kept",
    "FF.Embeddings.c44_plain_analogy"
   ],
   "note": ""
  },
  {
   "property": "C45",
   "status": "proved",
   "theorems": [
    "FF.c45_vector",
    "FF.c45_error",
    "FF.Embeddings.c45_plain_vector"
   ],
   "note": ""
  },
  {
   "property": "C46",
   "status": "proved",
   "theorems": [
    "FF.c46_range",
    "FF.c46_distance",
    "FF.c46_angular",
    "FF.c46_angle",
    "FF.c46_euclidean",
    "FF.c46_euclidean_ends",
    "FF.c46_similarity",
    "FF.c46_order"
   ],
   "note": ""
  },
  {
   "property": "C47",
   "status": "proved",
   "theorems": [
    "FF.c47_array",
    "FF.c47_mmap_array",
    "FF.c47_quantized",
    "FF.c47_mmap_quantized",
    "FF.c47_wrap",
    "FF.c47_view_wrap",
    "FF.c47_clone_array",
    "FF.c47_clone_mmap_array",
    "FF.c47_clone_quantized",
    "FF.c47_clone_mmap_quantized",
    "FF.c47_clone_wrap",
    "FF.c47_reconstruct",
    "FF.c47_reconstruct_total"
   ],
   "note": ""
  },
  {
   "property": "C48",
   "status": "proved",
   "theorems": [
    "FF.c48_roundtrip",
    "FF.c48_words",
    "FF.c48_normalized",
    "FF.c48_trim",
    "FF.c48_accepts",
    "FF.c48_panics",
    "FF.c48_zero",
    "FF.c48_zero_panics",
    "FF.c48_zero_made_up"
   ],
   "note": "c48_accepts and c48_panics say exactly which files with components are read, and as what, and which make the readers panic; c48_zero and c48_zero_panics the same for files without components."
  },
  {
   "property": "C49",
   "status": "proved",
   "theorems": [
    "FF.c49_text",
    "FF.c49_text_dims",
    "FF.c49_words",
    "FF.c49_separators"
   ],
   "note": ""
  },
  {
   "property": "C50",
   "status": "partial",
   "theorems": [
    "FF.c50_partial",
    "FF.c50_accepts",
    "FF.c50_panics",
    "FF.c50_dims_accepts",
    "FF.c50_dims_panics",
    "FF.c50_ragged_false",
    "FF.c50_panic_false"
   ],
   "note": "False: ragged tables whose total fits are accepted; empty tables and repeated words panic. c50_accepts and c50_panics say exactly which files are accepted and which panic."
  },
  {
   "property": "C51",
   "status": "proved",
   "theorems": [
    "FF.c51_roundtrip"
   ],
   "note": ""
  },
  {
   "property": "C52",
   "status": "proved",
   "theorems": [
    "FF.c52_roundtrip",
    "FF.c52_config"
   ],
   "note": "Exact arithmetic (real numbers); the written numbers must be representable as 32-bit floats. Single precision: C92."
  },
  {
   "property": "C53",
   "status": "partial",
   "theorems": [
    "FF.c53_unsupported",
    "FF.c53_entry",
    "FF.c53_quantized_partial",
    "FF.c53_shape_partial",
    "FF.c53_shape_false",
    "FF.c53_quantized_false",
    "FF.c53_no_ngrams_panics"
   ],
   "note": "False for misshapen matrices with missing rows and for quantized models with repeated words or 2^31 buckets: these panic. Everything else listed in the property is an error."
  },
  {
   "property": "C54",
   "status": "partial",
   "theorems": [
    "FF.c54_partial",
    "FF.c54_token",
    "FF.c54_decode",
    "FF.c54_eof",
    "FF.c54_eof_false",
    "FF.c54_number",
    "FF.c54_number_eof",
    "FF.c54_decimal"
   ],
   "note": "False at the end of input without delimiter: the last byte is dropped."
  },
  {
   "property": "C55",
   "status": "proved",
   "theorems": [
    "FF.c55_decode",
    "FF.c55_text",
    "FF.c55_text_dims",
    "FF.c55_word2vec",
    "FF.c55_fasttext",
    "FF.c55_lossy",
    "FF.c55_text_dims_where",
    "FF.c55_word2vec_where",
    "FF.c55_fasttext_where"
   ],
   "note": ""
  },
  {
   "property": "C56",
   "status": "partial",
   "theorems": [
    "FF.c56_partial",
    "FF.c56_false",
    "FF.c56_vocab_false",
    "FF.c56_storage_false",
    "FF.c56_header"
   ],
   "note": "False: repeated words, large lengths, bad exponents and empty quantizers panic. c56_partial and the theorems of C64 say exactly when."
  },
  {
   "property": "C57",
   "status": "proved",
   "theorems": [
    "FF.c57_bound",
    "FF.c57_guard",
    "FF.c57_train_error",
    "FF.c57_train_panic",
    "FF.c57_ok",
    "FF.c57_embeddings",
    "FF.c57_consistent",
    "FF.c57_view_array",
    "FF.c57_view_mmap",
    "FF.c57_view_wrap"
   ],
   "note": "Training and encoding by the crate reductive are parameters with an explicit contract (TrainerContract)."
  },
  {
   "property": "C58",
   "status": "proved",
   "theorems": [
    "FF.c58_into",
    "FF.c58_vocab",
    "FF.c58_storage"
   ],
   "note": ""
  },
  {
   "property": "C59",
   "status": "partial",
   "theorems": [
    "FF.c59_false",
    "FF.c59_crash_false",
    "FF.c59_partial"
   ],
   "note": "False: a truncated dense chunk is mapped, and a later lookup returns zeros in place of the missing bytes or crashes (exactly which: C71); proved that lookups succeed when the file reaches to the end of the chunk."
  },
  {
   "property": "C60",
   "status": "proved",
   "theorems": [
    "FF.c60_accepts",
    "FF.c60_panics",
    "FF.c60_first_line",
    "FF.c60_errors"
   ],
   "note": ""
  },
  {
   "property": "C61",
   "status": "proved",
   "theorems": [
    "FF.c61_rows"
   ],
   "note": ""
  },
  {
   "property": "C62",
   "status": "proved",
   "theorems": [
    "FF.c53_accepts",
    "FF.c53_panics"
   ],
   "note": ""
  },
  {
   "property": "C63",
   "status": "proved",
   "theorems": [
    "FF.c63_seen",
    "FF.c63_error",
    "FF.c63_lossless"
   ],
   "note": "Exact arithmetic (real numbers)."
  },
  {
   "property": "C64",
   "status": "proved",
   "theorems": [
    "FF.c56_header",
    "FF.c56_metadata",
    "FF.c56_norms",
    "FF.c56_array",
    "FF.c56_mmap_array",
    "FF.c56_quantized",
    "FF.c56_mmap_quantized",
    "FF.c56_simple",
    "FF.c56_bucket",
    "FF.c56_fasttext",
    "FF.c56_explicit",
    "FF.c56_floret",
    "FF.c56_vocab",
    "FF.c56_storage",
    "FF.c56_partial"
   ],
   "note": ""
  },
  {
   "property": "C65",
   "status": "proved",
   "theorems": [
    "FF.c65_header",
    "FF.c65_simple",
    "FF.c65_bucket",
    "FF.c65_fasttext",
    "FF.c65_floret",
    "FF.c65_explicit",
    "FF.c65_array",
    "FF.c65_norms",
    "FF.c65_metadata",
    "FF.c65_quantized",
    "FF.c65_vocab_chunk",
    "FF.c65_storage_chunk",
    "FF.c65_file"
   ],
   "note": ""
  },
  {
   "property": "C66",
   "status": "proved",
   "theorems": [
    "FF.c66_bucket",
    "FF.c66_fasttext",
    "FF.c66_floret",
    "FF.c66_blocks"
   ],
   "note": ""
  },
  {
   "property": "C67",
   "status": "proved",
   "theorems": [
    "FF.c67_header",
    "FF.c67_simple",
    "FF.c67_bucket",
    "FF.c67_fasttext",
    "FF.c67_explicit",
    "FF.c67_floret",
    "FF.c67_array",
    "FF.c67_quantized",
    "FF.c67_norms",
    "FF.c67_metadata",
    "FF.c67_vocab",
    "FF.c67_storage",
    "FF.c67_read_metadata",
    "FF.c67_read",
    "FF.c67_empty_header",
    "FF.c67_floret_hashes"
   ],
   "note": "Memory-mapped storages are not covered here; C21 and C64 relate them to the readers."
  },
  {
   "property": "C68",
   "status": "proved",
   "theorems": [
    "FF.c68_bucket",
    "FF.c68_fasttext",
    "FF.c68_explicit",
    "FF.c68_floret"
   ],
   "note": ""
  },
  {
   "property": "C69",
   "status": "proved",
   "theorems": [
    "FF.c69_count",
    "FF.c69_indices",
    "FF.c69_overflow"
   ],
   "note": ""
  },
  {
   "property": "C70",
   "status": "proved",
   "theorems": [
    "FF.c70_norms",
    "FF.c70_no_norms"
   ],
   "note": "Storages without data are the exception shown by c18_empty_false."
  },
  {
   "property": "C71",
   "status": "proved",
   "theorems": [
    "FF.c71_array",
    "FF.c71_quantized",
    "FF.c71_write"
   ],
   "note": "Pages of 4096 bytes."
  },
  {
   "property": "C72",
   "status": "proved",
   "theorems": [
    "FF.c72_unknown"
   ],
   "note": ""
  },
  {
   "property": "C73",
   "status": "proved",
   "theorems": [
    "FF.c73_simple",
    "FF.c73_known",
    "FF.c73_bucket",
    "FF.c73_fasttext",
    "FF.c73_floret",
    "FF.c73_explicit",
    "FF.c73_explicit_indices",
    "FF.IsSumVector.unique"
   ],
   "note": ""
  },
  {
   "property": "C74",
   "status": "proved",
   "theorems": [
    "FF.c74_row"
   ],
   "note": ""
  },
  {
   "property": "C75",
   "status": "proved",
   "theorems": [
    "FF.c75_word2vec",
    "FF.c75_text",
    "FF.c75_text_dims",
    "FF.c75_floret",
    "FF.c75_fasttext",
    "FF.Shown.unique"
   ],
   "note": ""
  },
  {
   "property": "C76",
   "status": "proved",
   "theorems": [
    "FF.Ieee.c76_norm",
    "FF.Ieee.c76_unit",
    "FF.Ieee.c76_finite",
    "FF.Ieee.c76_restore",
    "FF.Ieee.c76_zero",
    "FF.Ieee.c76_readers",
    "FF.Ieee.c76_oov",
    "FF.Ieee.c76_false",
    "FF.Ieee.ieee_add",
    "FF.Ieee.ieee_sub",
    "FF.Ieee.ieee_mul",
    "FF.Ieee.ieee_div",
    "FF.Ieee.ieee_sqrt",
    "FF.Ieee.ieee_nan",
    "FF.Ieee.ieee_infinite",
    "FF.Ieee.ieee_infinities",
    "FF.Ieee.ieee_sign",
    "FF.Ieee.ieee_constants"
   ],
   "note": "The bit-exact model of f32 rounds correctly (ieee_*); sums in the order of ndarray without BLAS."
  },
  {
   "property": "C77",
   "status": "partial",
   "theorems": [
    "FF.Ieee.c77_false",
    "FF.Ieee.c77_range_partial",
    "FF.Ieee.c77_order",
    "FF.Ieee.c77_distance",
    "FF.Ieee.c77_similarity",
    "FF.Ieee.c77_nan",
    "FF.Ieee.c77_angular",
    "FF.Ieee.c77_pi",
    "FF.Ieee.c77_angle"
   ],
   "note": "False: two equal vectors can have a cosine similarity above one, for which the measures are NaN. Proved for similarities in [-1, 1]; c77_nan says exactly which similarities give NaN. f32::acos is a parameter of c77_angular."
  },
  {
   "property": "C78",
   "status": "proved",
   "theorems": [
    "FF.Ieee.c78_word",
    "FF.Ieee.c78_error",
    "FF.Ieee.c78_finite",
    "FF.Ieee.c78_range"
   ],
   "note": "Sums in the order of ndarray without BLAS."
  },
  {
   "property": "C79",
   "status": "proved",
   "theorems": [
    "FF.Ieee.c79_accepts",
    "FF.Ieee.c79_words",
    "FF.Ieee.c79_rounded",
    "FF.Ieee.c79_printed",
    "FF.Ieee.c79_special",
    "FF.Ieee.c79_roundtrip",
    "FF.Ieee.c79_text",
    "FF.Ieee.c79_text_dims",
    "FF.Ieee.c79_floret",
    "FF.Ieee.c79_text_all",
    "FF.Ieee.c79_text_dims_all",
    "FF.Ieee.c79_floret_all"
   ],
   "note": "Words as in C49, markers and sizes as in C51. Display and FromStr of f32 are modelled after core. Exponents of 655,360 and more are cut by core; c79_rounded excludes them only for texts of 65,000 or more characters."
  },
  {
   "property": "C80",
   "status": "proved",
   "theorems": [
    "FF.c80_word2vec",
    "FF.c80_text",
    "FF.c80_fasttext",
    "FF.c80_floret",
    "FF.c80_wide_false"
   ],
   "note": "The TOML library is a parameter; c80_wide_false is the file without rows that the size condition excludes."
  },
  {
   "property": "C81",
   "status": "proved",
   "theorems": [
    "FF.c81_lazy",
    "FF.c81_index",
    "FF.c81_parts",
    "FF.c81_set_metadata",
    "FF.c81_metadata_mut",
    "FF.c81_written",
    "FF.c81_vocab",
    "FF.c81_char_len",
    "FF.c81_wrapped",
    "FF.Embeddings.c81_accessors"
   ],
   "note": ""
  },
  {
   "property": "C82",
   "status": "proved",
   "theorems": [
    "FF.c82_fasttext",
    "FF.c82_word2vec",
    "FF.c82_text_dims",
    "FF.c82_text_dims_normalized",
    "FF.c82_floret",
    "FF.c82_unnoticed"
   ],
   "note": ""
  },
  {
   "property": "C83",
   "status": "proved",
   "theorems": [
    "FF.c83_ngrams",
    "FF.c83_order",
    "FF.c83_wrap",
    "FF.c83_bytes_false"
   ],
   "note": "The last theorem shows that the bytes of the file do depend on the order."
  },
  {
   "property": "C84",
   "status": "proved",
   "theorems": [
    "FF.c84_file",
    "FF.c84_mapped"
   ],
   "note": ""
  },
  {
   "property": "C85",
   "status": "partial",
   "theorems": [
    "FF.c85_bound_false",
    "FF.c85_capacity_partial"
   ],
   "note": "False as stated: with n-grams of length 3 to 2^32 - 1, listing the one n-gram of \"a\" reserves 12884901880 elements. Proved: the exact number of elements that is reserved, (max_n - min_n + 1) * L + 1 but at least four, or none if there are no n-grams."
  },
  {
   "property": "C86",
   "status": "partial",
   "theorems": [
    "FF.c86_false",
    "FF.c86_partial",
    "FF.c86_erase"
   ],
   "note": "False as stated: a failure to write the entry type of a word is a read error. Proved: exactly these failures are read errors, all others write errors, and there is a failure exactly if the file does not fit."
  },
  {
   "property": "C87",
   "status": "proved",
   "theorems": [
    "FF.c87_vocab",
    "FF.c87_storage",
    "FF.c87_norms",
    "FF.c87_rewrite",
    "FF.c87_mapped"
   ],
   "note": ""
  },
  {
   "property": "C88",
   "status": "partial",
   "theorems": [
    "FF.c88_partial",
    "FF.c88_floret_partial",
    "FF.c88_read_partial",
    "FF.c88_false"
   ],
   "note": "False as stated: a floret vocabulary whose number of hash functions is not from 1 to 4 is answered with an I/O error (Error::read_error, subword.rs:628-636), however the data continues (c88_false). Proved with this exception, for every chunk type and for whole files; for whole files, success can still turn into success with norms (C17)."
  },
  {
   "property": "C89",
   "status": "partial",
   "theorems": [
    "FF.c89_partial",
    "FF.c89_head_partial",
    "FF.c89_storage_partial",
    "FF.c89_mmap_partial",
    "FF.c89_false"
   ],
   "note": "False as stated: the padding of matrices and norms is computed from the position in the file, so moved data can silently give other numbers (c89_false). Proved for moves by multiples of four bytes, and for any move of headers, metadata and vocabularies."
  },
  {
   "property": "C90",
   "status": "partial",
   "theorems": [
    "FF.c90_partial",
    "FF.c90_seek_partial",
    "FF.c90_stop",
    "FF.c90_false",
    "FF.c90_word2vec_partial"
   ],
   "note": "False as stated: the attempt to read optional norms takes four bytes from whatever follows and does not move back, so embeddings without norms cannot be followed by others (c90_false, for all embeddings); a word2vec reader leaves the last line feed in the stream (c90_word2vec_partial). Proved if all but the last have norms, and for readers that seek to the starts computed with write_embeddings_len."
  },
  {
   "property": "C91",
   "status": "proved",
   "theorems": [
    "FF.Ieee.c91_direction",
    "FF.Ieee.c91_normalize",
    "FF.Ieee.c91_unknown",
    "FF.Ieee.c91_fasttext",
    "FF.Ieee.c91_ranking",
    "FF.Ieee.c91_embedding",
    "FF.Ieee.c91_word",
    "FF.Ieee.c91_analogy",
    "FF.Ieee.c91_quantized"
   ],
   "note": "Error bounds for f32 bit patterns with the IEEE operations of the model. The order of summation is the one of the model (Model/Float); rows that nearly cancel each other out, overflow and underflow are excluded by hypotheses on the exact values."
  },
  {
   "property": "C92",
   "status": "proved",
   "theorems": [
    "FF.Ieee.c92_roundtrip"
   ],
   "note": "Error bounds for f32 bit patterns with the IEEE operations of the model. Words whose vector times norm is tiny, or tiny compared with the rows of their n-grams, are excluded by hypotheses; the vocabulary and the bucket rows are covered without these."
  },
  {
   "property": "C93",
   "status": "proved",
   "theorems": [
    "FF.c93_read",
    "FF.c93_wrap",
    "FF.c93_panic",
    "FF.c93_storage",
    "FF.c93_little",
    "FF.c93_view"
   ],
   "note": "Model/Endian: the conditionally compiled branches. The statement names the exception (a panic) that the code has; see DESIGN.md."
  },
  {
   "property": "C94",
   "status": "partial",
   "theorems": [
    "FF.c94_64",
    "FF.c94_agrees",
    "FF.c94_overflow",
    "FF.c94_file",
    "FF.c94_false",
    "FF.c94_partial"
   ],
   "note": "False as stated: bucketed and explicit vocabularies and metadata convert counts with `as usize`, which truncates on 32-bit machines (c94_false has the witnesses). c94_partial: these chunks agree if the counts are below 2^32. All other chunk types (c94_agrees, c94_overflow) and files below 4 GiB (c94_file) are proved in full."
  },
  {
   "property": "C95",
   "status": "partial",
   "theorems": [
    "FF.c95_partial",
    "FF.c95_exact",
    "FF.c95_aligned",
    "FF.c95_quantized",
    "FF.c95_rows",
    "FF.c95_quantized_rows",
    "FF.c95_false"
   ],
   "note": "False as stated: without overflow checks the length of the map of a dense matrix wraps around and rows can lie outside (c95_false). Proved: builds with checks, and matrices whose size fits into 64 bits, which is the exact condition (c95_exact); alignment; quantized matrices in both builds."
  },
  {
   "property": "C96",
   "status": "partial",
   "theorems": [
    "FF.c96_partial",
    "FF.c96_vocab_len",
    "FF.c96_lookup",
    "FF.c96_text",
    "FF.c96_false"
   ],
   "note": "False as stated (c96_false has two witnesses). Proved: the builds agree wherever checks do not panic, on all lookups of constructed vocabularies, and on all accepted text and floret files."
  },
  {
   "property": "C97",
   "status": "proved",
   "theorems": [
    "FF.c97_finalfusion",
    "FF.c97_unknown",
    "FF.c97_word2vec",
    "FF.c97_fasttext",
    "FF.c97_floret",
    "FF.c97_text",
    "FF.c97_text_dims"
   ],
   "note": ""
  },
  {
   "property": "C98",
   "status": "proved",
   "theorems": [
    "FF.Ieee.c98_word2vec",
    "FF.Ieee.c98_text",
    "FF.Ieee.c98_text_dims",
    "FF.c98_plain",
    "FF.c98_plain_real",
    "FF.Ieee.c98_plain_f32",
    "FF.Ieee.c98_inexact",
    "FF.Ieee.c98_lost"
   ],
   "note": "The text formats need files of up to 2^58 bytes."
  },
  {
   "property": "C99",
   "status": "proved",
   "theorems": [
    "FF.c99_limit",
    "FF.c99_skip",
    "FF.c99_mask",
    "FF.c99_order"
   ],
   "note": ""
  }
 ]
}