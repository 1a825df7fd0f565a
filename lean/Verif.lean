import Verif.Props.Ints
import Verif.Props.Typed
import Verif.Props.Io
import Verif.Props.Header
import Verif.Props.Body
import Verif.Props.Bounds
import Verif.Props.BigNum
import Verif.Props.Date
import Verif.Props.Records
import Verif.Props.Derive
import Verif.Props.Coders
import Verif.Props.DeriveDe
import Verif.Props.DeriveIo
import Verif.Props.DeriveAgree
import Verif.Props.DeriveYield
import Verif.Props.DeriveRead
import Verif.Props.Rec
import Verif.Props.Visit
import Verif.Props.Evolve
import Verif.Props.Cost
import Verif.Props.Eq
import Verif.Props.SerImpl
import Verif.Props.After
import Verif.Props.Catch
import Verif.Props.Targets
import Verif.Props.Errors
import Verif.Props.SerIf
import Verif.Props.Collect
import Verif.Props.Attrs
import Verif.Props.Buffered
import Verif.Props.AnyTarget
import Verif.Props.StdTypes
import Verif.Props.TypedAny
import Verif.Props.Lenient
import Verif.Props.LenientAll
import Verif.Props.Sends
import Verif.Props.AnyReader
import Verif.Props.Adapters
import Verif.Props.AnyWriter
import Verif.Props.AnyWriterAll
import Verif.Props.HistoryAll
import Verif.Props.Grammar
import Verif.Props.BodyGrammar
import Verif.Props.DeriveGrammar
import Verif.Props.GrammarAny
import Verif.Props.TypesAny
import Verif.Props.Stack
import Verif.Props.RecSer
import Verif.Props.Log
import Verif.Props.Convert
import Verif.Props.Builds
import Verif.Props.Formats
import Verif.Props.Adjacent
import Verif.Props.History
import Verif.Props.SelfLog
import Verif.Props.Writers
import Verif.Props.SameData
import Verif.Props.Seek
import Verif.Props.KeyOrder
import Verif.Props.Readers
import Verif.Props.Frames
import Verif.Props.Grows
import Verif.Props.Splice
import Verif.Props.SpliceDerived
import Verif.Props.With
import Verif.Props.Relay
import Verif.Props.Message
import Verif.Props.Network
import Verif.Props.Pipeline
import Verif.Props.Held
import Verif.Props.ErrorText
import Verif.Props.Least
import Verif.Props.DerivedWrites
import Verif.Props.TakeFrames
import Verif.Props.RelayMixed
import Verif.Conformance
