import Verif.Base.Basic
import Verif.Util.Heap
import Verif.Util.Padding
import Verif.Util.PaddingSpec
import Verif.Util.PaddingLemmas
import Verif.Props.Padding
import Verif.Sm4.Model
import Verif.Sm4.Spec
import Verif.Sm4.Lemmas
import Verif.Sm4.HeapLemmas
import Verif.Props.Sm4
import Verif.Sm3.Model
import Verif.Sm3.Spec
import Verif.Sm3.Compress
import Verif.Sm3.Abs
import Verif.Props.Sm3
import Verif.Util.HeapLemmas
import Verif.CB.Str
import Verif.CB.Read
import Verif.CB.Spec
import Verif.CB.StrLemmas
import Verif.CB.ReadLemmas
import Verif.CB.Builder
import Verif.CB.BuilderSpec
import Verif.CB.BuilderLemmas
import Verif.CB.BuilderRefine
import Verif.CB.Add
import Verif.CB.EvalLemmas
import Verif.CB.IntSpec
import Verif.CB.IntLemmas
import Verif.CB.AddLemmas
import Verif.CB.OidSpec
import Verif.CB.OidLemmas
import Verif.CB.SafeLemmas
import Verif.CB.BitSpec
import Verif.Props.CryptobyteRead
import Verif.Props.CryptobyteRoundTrip
import Verif.CB.FixedLemmas
import Verif.Props.CryptobyteBuilder
import Verif.EC.Prime
import Verif.EC.Model
import Verif.EC.Group
import Verif.EC.Eval
import Verif.Sm2.Curve
import Verif.Sm2.Order
import Verif.Der.Model
import Verif.Der.Lemmas
import Verif.Sm2.Model
import Verif.Sm2.Spec
import Verif.Sm2.Lemmas
import Verif.Sm2.SignLemmas
import Verif.Props.Sm2Keys
import Verif.Props.Sm2Sign
import Verif.Sm2.CipherLemmas
import Verif.Props.Sm2Cipher
import Verif.Sm2.Exchange
import Verif.Sm2.ExchangeSpec
import Verif.Sm2.ExchangeLemmas
import Verif.Props.Sm2Exchange
import Verif.Cert.Utf8
import Verif.Cert.Utf8Spec
import Verif.Cert.Leaf
import Verif.Cert.NameSpec
import Verif.Cert.LeafLemmas
import Verif.Props.CertNames
import Verif.Der.Types
import Verif.Der.TypeLemmas
import Verif.Der.RoundTrip
import Verif.Cert.Types
import Verif.Cert.San
import Verif.Cert.Name
import Verif.Cert.CreateLemmas
import Verif.Cert.Csr
import Verif.Cert.Ext
import Verif.Cert.Parse
import Verif.Der.Total
import Verif.Cert.SubjectSpec
import Verif.Cert.Total
import Verif.Cert.Spec
import Verif.Cert.Accept
import Verif.Cert.ExtLemmas
import Verif.Props.CertTotal
import Verif.Props.CertAccept
import Verif.Cert.TypesRT
import Verif.Cert.CsrLemmas
import Verif.Cert.High
import Verif.Cert.SanLemmas
import Verif.Cert.ConstraintLemmas
import Verif.Props.CertRequest
import Verif.Props.CertSan
import Verif.Props.CertSubject
import Verif.Props.CertUsage
import Verif.Props.CertConstraints
import Verif.Cert.SectionLemmas
import Verif.Cert.MakeTotal
import Verif.Cert.TlvLemmas
import Verif.Cert.FieldLemmas
import Verif.Cert.TimeSpec
import Verif.Cert.TimeLemmas
import Verif.Props.CertExtensions
import Verif.Props.CertTimes
import Verif.Cert.CertRT
import Verif.Cert.IssueLemmas
import Verif.Props.CertIssue
import Verif.Props.CertFlow
import Verif.Props.CertProfile
import Verif.Props.CertUnhandled
import Verif.Props.Sm2SignCount
import Verif.Props.Sm2Random
import Verif.Der.GoTime
import Verif.Cert.GoTimeLemmas
import Verif.CB.Time
import Verif.Props.CryptobyteTime
import Verif.Props.CryptobyteLocal
import Verif.Sm2.Capacity
import Verif.Props.Sm2Capacity
import Verif.Sm3.Capacity
import Verif.Props.Sm3Capacity
import Verif.Props.Sm2Binding
import Verif.Props.Sm2CipherForm
import Verif.Props.Sm2Transcript
import Verif.Sm3.Hmac
import Verif.Props.Sm3Hmac
import Verif.Props.CertSigned
import Verif.Der.OidInt
import Verif.Props.CertOid
import Verif.Props.Sm4Schedule
import Verif.Props.Sm3Collision
import Verif.Props.Sm2KeyPairs
import Verif.Props.Sm2Producible
import Verif.Cert.GoUrl
import Verif.Cert.UrlLemmas
import Verif.Cert.UrlRT
import Verif.Cert.IpText
import Verif.Props.CertUrl
import Verif.Props.CertIp
import Verif.Props.Sm2Twins
import Verif.Props.Sm3Extend
import Verif.Sm4.Modes
import Verif.Sm4.ModesLemmas
import Verif.Props.Sm4Memory
import Verif.EC.Store
import Verif.EC.StoreLemmas
import Verif.Sm2.Store
import Verif.Sm2.StoreLemmas
import Verif.Props.Sm2Memory
import Verif.EC.Work
import Verif.Sm3.Print
import Verif.Props.Sm2Work
import Verif.Props.Sm4Oracle
import Verif.Props.Sm3Print
import Verif.Sm4.Conc
import Verif.Sm4.ConcLemmas
import Verif.Props.Sm4Concurrent
import Verif.Props.Sm4Leak
import Verif.Props.Sm2ExchangeBits
import Verif.Props.Sm2Conc
import Verif.Sm2.OtherCurve
import Verif.Props.Sm2OtherCurve
import Verif.Sm2.Buffers
import Verif.Sm2.BuffersLemmas
import Verif.Sm2.BuffersMore
import Verif.Sm2.BuffersExchange
import Verif.Props.Sm2Buffers
import Verif.Cert.Memory
import Verif.Cert.MemoryLemmas
import Verif.Props.CertMemory
import Verif.CB.BuilderMemory
import Verif.CB.KeepLemmas
import Verif.Props.CryptobyteMemory
import Verif.CB.StrMemory
import Verif.CB.StrMemoryLemmas
import Verif.Props.CryptobyteStrings
import Verif.Cert.WireSpec
import Verif.Cert.WireLemmas
import Verif.Props.CertWire
import Verif.Cert.ReadLemmas
import Verif.Props.CertRenew
import Verif.Sm4.Stream
import Verif.Sm4.StreamSpec
import Verif.Sm4.StreamLemmas
import Verif.Props.Sm4Stream
import Verif.Props.CertChain
import Verif.Props.Sm2Committing
import Verif.CB.Dynamic
import Verif.Props.CryptobyteDynamic
import Verif.Props.CryptobyteErrors
import Verif.Sm4.Trace
import Verif.Sm4.TraceLemmas
import Verif.Props.Sm4Lookups
import Verif.Props.Sm4Related
import Verif.Base.Rotate
import Verif.Props.Sm3Permutation
import Verif.Props.CryptobyteFormats
import Verif.Props.CertRepeated
import Verif.Props.CertApart
import Verif.Props.Sm2Owner
import Verif.Props.CertAsked
import Verif.Props.CertReadable
import Verif.Props.Sm3History
import Verif.Props.Sm2ExchangeExact
import Verif.Props.CertRequestReadable
import Verif.Props.CertTlvExact
import Verif.Props.CertLanguage
import Verif.Props.CertFieldExact
import Verif.Props.CertExtExact
import Verif.Props.CertificateLanguage
import Verif.Props.Sm2AnyKey
import Verif.Sm4.Diffusion
import Verif.Sm4.SboxDiff
import Verif.Props.Sm4Diffusion
import Verif.Cert.InfoMemory
import Verif.Cert.InfoMemoryLemmas
import Verif.Props.CertInfoMemory
import Verif.CB.Int32
import Verif.CB.Int32Lemmas
import Verif.Cert.Int32
import Verif.Cert.Int32Lemmas
import Verif.Props.CertInt32
import Verif.Props.RepoVectors
import Verif.Props.Sm2Vectors
import Verif.Props.Sm2VectorsExchange
import Verif.Props.Sm2Layouts
import Verif.Props.Sm2CipherDer
import Verif.Props.CryptobyteFixed
import Verif.Props.CertSize
import Verif.Props.Sm2VerifyTotal
import Verif.Props.Sm2KeyNumbers
import Verif.Props.CertAskedKept
import Verif.Props.Sm2ConfirmedKey
import Verif.Props.Sm4Uniform
import Verif.Props.Sm4OracleLimit
import Verif.Props.CertAttributes
import Verif.Props.CertAttributesSize
import Verif.Props.CertRequestAgain
import Verif.Props.Sm4KeyDiffusion
import Verif.Props.DerReaders
import Verif.Props.DerWriters
import Verif.Props.Sm4Pieces
import Verif.Props.CryptobyteTags
import Verif.Props.Sm4Shows
import Verif.Props.Sm2Sizes
import Verif.Props.Sm4Changed
import Verif.Props.CryptobyteTagged
import Verif.Props.CryptobyteOctets
import Verif.Props.Sm2NilId
