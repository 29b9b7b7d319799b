import Verif.Model.Arshal
import Verif.Model.ArshalTest
import Verif.Model.Basic
import Verif.Model.Binary
import Verif.Model.BufWriter
import Verif.Model.Bufio
import Verif.Model.Byte
import Verif.Model.ByteW
import Verif.Model.Compact
import Verif.Model.Concurrent
import Verif.Model.ErrorText
import Verif.Model.Feed
import Verif.Model.Fields
import Verif.Model.GoType
import Verif.Model.Heap
import Verif.Model.Memo
import Verif.Model.MemoGen
import Verif.Model.Memory
import Verif.Model.MemoryW
import Verif.Model.Parser
import Verif.Model.Protocol
import Verif.Model.Scanner
import Verif.Model.Share
import Verif.Model.ShareW
import Verif.Model.Stack
import Verif.Model.StackM
import Verif.Model.StackP
import Verif.Model.StackU
import Verif.Model.Stream
import Verif.Model.Stringer
import Verif.Model.Syntax
import Verif.Model.ThriftTest
import Verif.Model.Token
import Verif.Model.Utf8
import Verif.Model.Varint
import Verif.Model.Wire
import Verif.Model.WireBufio
import Verif.Proof.Accept
import Verif.Proof.Again
import Verif.Proof.Alike
import Verif.Proof.AnyOrder
import Verif.Proof.Apart
import Verif.Proof.ArshalTest
import Verif.Proof.BE
import Verif.Proof.Binary
import Verif.Proof.BinaryExact
import Verif.Proof.Blame
import Verif.Proof.BufWriter
import Verif.Proof.Bufio
import Verif.Proof.Canon
import Verif.Proof.CanonRep
import Verif.Proof.CanonSettle
import Verif.Proof.Chars
import Verif.Proof.Checked
import Verif.Proof.Clean
import Verif.Proof.CompactExact
import Verif.Proof.CompactRead
import Verif.Proof.CompactWire
import Verif.Proof.Dec
import Verif.Proof.DecLe
import Verif.Proof.DecTotal
import Verif.Proof.Decimal
import Verif.Proof.Decode
import Verif.Proof.DecodeOrder
import Verif.Proof.Discipline
import Verif.Proof.Eats
import Verif.Proof.EndToEnd
import Verif.Proof.Evolve
import Verif.Proof.Exact
import Verif.Proof.FailFast
import Verif.Proof.Feed
import Verif.Proof.Flat
import Verif.Proof.Found
import Verif.Proof.Goroutines
import Verif.Proof.HeapCycle
import Verif.Proof.HeapFrame
import Verif.Proof.HeapLe
import Verif.Proof.HeapLeaf
import Verif.Proof.HeapMap
import Verif.Proof.HeapMarshal
import Verif.Proof.HeapOwn
import Verif.Proof.HeapSeq
import Verif.Proof.HeapTop
import Verif.Proof.HeapTree
import Verif.Proof.Holds
import Verif.Proof.Hostile
import Verif.Proof.Idle
import Verif.Proof.Join
import Verif.Proof.Keep
import Verif.Proof.KeyEq
import Verif.Proof.Layout
import Verif.Proof.Le
import Verif.Proof.Lex
import Verif.Proof.LexNext
import Verif.Proof.LexPos
import Verif.Proof.LexToken
import Verif.Proof.Lexeme
import Verif.Proof.Lines
import Verif.Proof.Load
import Verif.Proof.Lookup
import Verif.Proof.MapOrder
import Verif.Proof.MapSame
import Verif.Proof.Marshal
import Verif.Proof.MarshalWork
import Verif.Proof.Memo
import Verif.Proof.MemoAny
import Verif.Proof.MemoBreak
import Verif.Proof.MemoCut
import Verif.Proof.MemoGen
import Verif.Proof.MemoSkip
import Verif.Proof.MemoTest
import Verif.Proof.Memory
import Verif.Proof.MemoryW
import Verif.Proof.Merge
import Verif.Proof.MergeMap
import Verif.Proof.Message
import Verif.Proof.Mismatch
import Verif.Proof.Nesting
import Verif.Proof.OrderRead
import Verif.Proof.ParseAll
import Verif.Proof.ParseEats
import Verif.Proof.ParseFirst
import Verif.Proof.ParseFull
import Verif.Proof.ParseGood
import Verif.Proof.ParseOpen
import Verif.Proof.ParsePlaces
import Verif.Proof.ParseResync
import Verif.Proof.ParseSim
import Verif.Proof.ParseSound
import Verif.Proof.ParseSync
import Verif.Proof.ParseTokens
import Verif.Proof.ParseWork
import Verif.Proof.Partial
import Verif.Proof.RefArshal
import Verif.Proof.RefLookup
import Verif.Proof.RefTable
import Verif.Proof.Refine
import Verif.Proof.Rep
import Verif.Proof.RepWF
import Verif.Proof.Robust
import Verif.Proof.RoundTrip
import Verif.Proof.SameCalls
import Verif.Proof.ScanAll
import Verif.Proof.ScanLex
import Verif.Proof.ScanRel
import Verif.Proof.ScanWork
import Verif.Proof.Scanner
import Verif.Proof.Semi
import Verif.Proof.Share
import Verif.Proof.ShareW
import Verif.Proof.Shared
import Verif.Proof.Size
import Verif.Proof.Stack
import Verif.Proof.StackM
import Verif.Proof.StackP
import Verif.Proof.StackU
import Verif.Proof.Strict
import Verif.Proof.Stringer
import Verif.Proof.Strip
import Verif.Proof.Table
import Verif.Proof.Tag
import Verif.Proof.Tame
import Verif.Proof.TestPass
import Verif.Proof.ThriftTable
import Verif.Proof.ThriftTest
import Verif.Proof.TokScan
import Verif.Proof.Toks
import Verif.Proof.Told
import Verif.Proof.Top
import Verif.Proof.TreeSize
import Verif.Proof.Utf8
import Verif.Proof.Valid
import Verif.Proof.Varint
import Verif.Proof.Wait
import Verif.Proof.WaitU
import Verif.Proof.WireBufio
import Verif.Proof.Wp
import Verif.Proof.WrapExact
import Verif.Proof.Writable
import Verif.Proof.Writes
import Verif.Proof.ZMemo
import Verif.Props.Accept
import Verif.Props.Again
import Verif.Props.AnyOrder
import Verif.Props.Apart
import Verif.Props.ArshalErr
import Verif.Props.ArshalTest
import Verif.Props.Binary
import Verif.Props.Blame
import Verif.Props.BufWriter
import Verif.Props.Bufio
import Verif.Props.Canon
import Verif.Props.Compact
import Verif.Props.Concurrent
import Verif.Props.Decode
import Verif.Props.Discipline
import Verif.Props.EndToEnd
import Verif.Props.ErrorText
import Verif.Props.Evolve
import Verif.Props.Feed
import Verif.Props.FirstError
import Verif.Props.Grow
import Verif.Props.Heap
import Verif.Props.HeapCycle
import Verif.Props.Hostile
import Verif.Props.Join
import Verif.Props.Keys
import Verif.Props.Layout
import Verif.Props.Load
import Verif.Props.Lookup
import Verif.Props.MapOrder
import Verif.Props.Marshal
import Verif.Props.MarshalWork
import Verif.Props.Memo
import Verif.Props.MemoBreaks
import Verif.Props.MemoGen
import Verif.Props.MemoSkip
import Verif.Props.Memory
import Verif.Props.MemoryW
import Verif.Props.Merge
import Verif.Props.MergeMap
import Verif.Props.Numbers
import Verif.Props.Parse
import Verif.Props.ParseText
import Verif.Props.ParseWork
import Verif.Props.Partial
import Verif.Props.Places
import Verif.Props.RepoTests
import Verif.Props.Resume
import Verif.Props.Robust
import Verif.Props.RoundTrip
import Verif.Props.Scan
import Verif.Props.Share
import Verif.Props.ShareW
import Verif.Props.Size
import Verif.Props.Skip
import Verif.Props.Stack
import Verif.Props.StackM
import Verif.Props.StackP
import Verif.Props.StackU
import Verif.Props.Stringer
import Verif.Props.Strip
import Verif.Props.Tag
import Verif.Props.TestPass
import Verif.Props.ThriftTest
import Verif.Props.TreeSize
import Verif.Props.Varint
import Verif.Props.WaitU
import Verif.Props.WireBufio
import Verif.Props.Writable
import Verif.Props.Zero
import Verif.Spec.Accept
import Verif.Spec.Again
import Verif.Spec.AnyOrder
import Verif.Spec.Arshal
import Verif.Spec.ArshalTable
import Verif.Spec.ArshalTest
import Verif.Spec.Blame
import Verif.Spec.Canon
import Verif.Spec.Concurrent
import Verif.Spec.Counted
import Verif.Spec.Decimal
import Verif.Spec.Decode
import Verif.Spec.Delivery
import Verif.Spec.Depth
import Verif.Spec.DepthP
import Verif.Spec.Discipline
import Verif.Spec.Evolve
import Verif.Spec.Example
import Verif.Spec.Feed
import Verif.Spec.FirstError
import Verif.Spec.Found
import Verif.Spec.Fragment
import Verif.Spec.GoValue
import Verif.Spec.Grammar
import Verif.Spec.Grow
import Verif.Spec.Heap
import Verif.Spec.HeapCycle
import Verif.Spec.HeapExample
import Verif.Spec.Holds
import Verif.Spec.IdlExample
import Verif.Spec.KeyEq
import Verif.Spec.Layout
import Verif.Spec.Lex
import Verif.Spec.Lines
import Verif.Spec.Load
import Verif.Spec.MapOrder
import Verif.Spec.Marshal
import Verif.Spec.Memo
import Verif.Spec.MemoGen
import Verif.Spec.Names
import Verif.Spec.Nesting
import Verif.Spec.Numbers
import Verif.Spec.ParseWork
import Verif.Spec.Partial
import Verif.Spec.Places
import Verif.Spec.Pointers
import Verif.Spec.Room
import Verif.Spec.Same
import Verif.Spec.Scalar
import Verif.Spec.Session
import Verif.Spec.Share
import Verif.Spec.ShareW
import Verif.Spec.Stream
import Verif.Spec.Strip
import Verif.Spec.TVal
import Verif.Spec.Tag
import Verif.Spec.TestPass
import Verif.Spec.ThriftTest
import Verif.Spec.TreeSize
import Verif.Spec.Types
import Verif.Spec.Utf8
import Verif.Spec.Varint
import Verif.Spec.Wait
import Verif.Spec.Writable
import Verif.Spec.ZMemo
import Verif.Spec.Zero
