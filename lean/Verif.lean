import Verif.Props.Coord
import Verif.Props.CoordText
import Verif.Props.CoordIeee
import Verif.Props.Timestamp
import Verif.Props.Objects
import Verif.Props.Builder
import Verif.Props.Writer
import Verif.Props.XmlRead
import Verif.Props.XmlExact
import Verif.Props.ReaderExact
import Verif.Props.Proto
import Verif.Props.PbfBlocks
import Verif.Props.PbfFiles
import Verif.Props.PbfReadable
import Verif.Props.XmlText
import Verif.Props.Changesets
import Verif.Props.ChangesetHeard
import Verif.Props.ChangesetDoctype
import Verif.Props.XmlNested
import Verif.Props.ChangesetText
import Verif.Props.Uncompiled
import Verif.Props.OplLine
import Verif.Props.ObjectsExact
import Verif.Props.TimestampExact
import Verif.Props.WriterExact
import Verif.Props.TagsToSqlite
import Verif.Props.TagsToSqliteMain
import Verif.Props.ProtoFields
import Verif.Props.Integers
import Verif.Props.CoordDebug
import Verif.Props.ProtoSize
import Verif.Props.Serde
import Verif.Props.IntoInner
import Verif.Props.CoordError
import Verif.Props.CoordDigits
import Verif.Props.Convert
import Verif.Props.Hints
import Verif.Props.Rewrite
import Verif.Props.Equality
import Verif.Props.AnySource
import Verif.Props.AnySink
import Verif.Props.XmlCut
import Verif.Props.XmlTorn
import Verif.Props.ChangesetCut
import Verif.Props.Open
import Verif.Props.Programs
import Verif.Props.ProgramText
import Verif.Props.ChangesetBuilder
import Verif.Props.XmlHeader
import Verif.Props.XmlGrammar
import Verif.Props.XmlStream
import Verif.Props.ChangesetStream
import Verif.Props.PbfMemory
import Verif.Props.PbfHeader
import Verif.Props.ErrorText
import Verif.Props.PbfZlib
import Verif.Props.Bzip2
import Verif.Spec.Bzip2
import Verif.Lib.Bzip2
import Verif.Proofs.Bzip2
import Verif.Proofs.Bzip2Ex
import Verif.Props.WitnessChangesets
import Verif.Props.WitnessObjects
import Verif.Props.WitnessPbf
import Verif.Props.WitnessOpl
import Verif.Props.WitnessXml
import Verif.Props.WitnessProto
import Verif.Props.WitnessRest
import Verif.Props.Edit
import Verif.Props.Loops
import Verif.Spec.Join
import Verif.Proofs.Join
import Verif.Props.Join
import Verif.Props.RepoTests
import Verif.Props.LibTests
import Verif.Spec.AccessorList
import Verif.Proofs.AccessorList
import Verif.Props.Accessors
import Verif.Spec.PbfDecode
import Verif.Proofs.ProtoDecodeMsg
import Verif.Props.ProtoDecode
import Verif.Spec.PbfShown
import Verif.Spec.PbfShownFile
import Verif.Proofs.PbfShown
import Verif.Proofs.PbfShownFile
import Verif.Props.PbfShown
import Verif.Spec.QuickTokens
import Verif.Proofs.QuickTokens
import Verif.Spec.ChangesetAny
import Verif.Proofs.ChangesetAny
import Verif.Props.ChangesetAny
import Verif.Props.PbfStreams
import Verif.Props.AnyStreams
import Verif.Props.OpenAny
import Verif.Spec.XmlAny
import Verif.Proofs.XmlAny
import Verif.Props.XmlAny
import Verif.Spec.PbfDamage
import Verif.Proofs.PbfDamage
import Verif.Props.PbfDamage
import Verif.Spec.PbfResume
import Verif.Proofs.PbfResume
import Verif.Proofs.PbfResumeBlobs
import Verif.Props.PbfResume
import Verif.Spec.PbfMethods
import Verif.Proofs.PbfMethods
import Verif.Props.PbfMethods
import Verif.Spec.WriterAny
import Verif.Proofs.WriterAny
import Verif.Props.WriterAny
import Verif.Props.WriterRead
import Verif.Props.AnyFromIter
import Verif.Spec.Kinds
import Verif.Model.ReaderPanics
import Verif.Props.Kinds
import Verif.Props.ObjDebug
import Verif.Props.ChangesetDebug
import Verif.Props.WriterShows
import Verif.Props.AnyLoop
import Verif.Lib.Chain
import Verif.Props.Chain
import Verif.Lib.Take
import Verif.Props.Take
import Verif.Lib.BufWriter
import Verif.Props.BufWriter
import Verif.Model.NodeStoreBuffered
import Verif.Props.NodeStoreBuffered
import Verif.Props.NodeChainPanics
import Verif.Props.NodeChainMinusOne
