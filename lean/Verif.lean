import Verif.Model.Basic
import Verif.Model.Stream
import Verif.Model.Io
import Verif.Lemmas.Io
import Verif.Model.HMap
import Verif.Model.Subword
import Verif.Tests.Subword
import Verif.Lemmas.NGrams
import Verif.Model.Vocab
import Verif.Model.VocabIO
import Verif.Lemmas.Vocab
import Verif.Lemmas.Explicit
import Verif.Lemmas.Indexers
import Verif.Props.Subword
import Verif.Props.Vocab
import Verif.Props.VocabIO
import Verif.Model.Matrix
import Verif.Model.Storage
import Verif.Model.Wrappers
import Verif.Model.Embeddings
import Verif.Model.Similarity
import Verif.Model.Measures
import Verif.Model.Text
import Verif.Model.Floret
import Verif.Lemmas.ReadAt
import Verif.Lemmas.ResList
import Verif.Lemmas.Storage
import Verif.Lemmas.EmbeddingsIO
import Verif.Lemmas.Text
import Verif.Props.StorageIO
import Verif.Props.Storage
import Verif.Props.Mmap
import Verif.Props.EmbeddingsIO
import Verif.Props.Lookup
import Verif.Props.Explicit
import Verif.Props.Similarity
import Verif.Props.Ranking
import Verif.Props.ResultOrder
import Verif.Props.Indexers
import Verif.Model.Requests
import Verif.Props.Requests
import Verif.Model.Failing
import Verif.Props.Failing
import Verif.Model.Iterators
import Verif.Props.Iterators
import Verif.Model.Equality
import Verif.Props.Equality
import Verif.Props.Needed
import Verif.Props.Damage
import Verif.Props.Measures
import Verif.Props.Word2vec
import Verif.Props.Text
import Verif.Model.FastText
import Verif.Lemmas.NoPanic
import Verif.Lemmas.FastText
import Verif.Props.Floret
import Verif.Props.FastText
import Verif.Lemmas.FastTextWrite
import Verif.Props.FastTextRoundtrip
import Verif.Props.Normalized
import Verif.Props.Outcomes
import Verif.Props.QuantizeReal
import Verif.Props.Malformed
import Verif.Props.Layout
import Verif.Props.Hash
import Verif.Lemmas.Parses
import Verif.Props.Accepted
import Verif.Props.Rewrite
import Verif.Props.Position
import Verif.Props.Moved
import Verif.Props.Exact
import Verif.Props.TextExact
import Verif.Props.Vectors
import Verif.Props.Written
import Verif.Lemmas.Float
import Verif.Lemmas.FloatSum
import Verif.Lemmas.FloatMono
import Verif.Lemmas.FloatNearest
import Verif.Model.Float
import Verif.Props.Float
import Verif.Props.FloatMeasures
import Verif.Props.FloatCosine
import Verif.Props.FloatWitness
import Verif.Props.FloatQuery
import Verif.Props.FloatWrite
import Verif.Lemmas.Euclid
import Verif.Lemmas.FloatVec
import Verif.Props.FloatRows
import Verif.Props.FloatFastText
import Verif.Model.Decimal
import Verif.Lemmas.Decimal
import Verif.Props.Decimal
import Verif.Props.Convert
import Verif.Model.Accessors
import Verif.Props.Accessors
import Verif.Props.Truncated
import Verif.Props.ExplicitFile
import Verif.Props.Memory
import Verif.Model.WriteErrors
import Verif.Props.WriteErrors
import Verif.Model.Resume
import Verif.Props.Sequence
import Verif.Model.Endian
import Verif.Props.Endian
import Verif.Model.WordSize
import Verif.Props.WordSize
import Verif.Model.Overflow
import Verif.Props.Overflow
import Verif.Props.ErrorKinds
import Verif.Props.Word2vecZero
import Verif.Model.Messages
import Verif.Lemmas.Messages
import Verif.Props.Messages
import Verif.Props.MessageText
import Verif.Model.MessagesCompat
import Verif.Props.MessagesCompat
import Verif.Props.MessagesMapped
import Verif.Props.MessageTextCompat
import Verif.Model.MessagesWrite
import Verif.Lemmas.MessagesWrite
import Verif.Props.MessagesWrite
import Verif.Model.MessagesConvert
import Verif.Props.MessagesConvert
import Verif.Props.History
import Verif.Props.HistoryStart
import Verif.Props.Agree
import Verif.Lemmas.LossyPrefix
import Verif.Props.TruncatedText
import Verif.Props.Others
import Verif.Props.FloatScale
import Verif.Props.Symmetric
import Verif.Props.Hints
import Verif.Props.ExplicitMapped
import Verif.Props.LineEnds
import Verif.Props.Pieces
import Verif.Props.Sinks
import Verif.Props.Concat
import Verif.Props.LineOrder
import Verif.Props.Parts
import Verif.Props.TruncatedNorms
import Verif.Props.RecordOrder
import Verif.Props.Formats
import Verif.Props.FirstLine
import Verif.Props.Exchange
import Verif.Tests.Conformance
