# Formal model of itstarsun/go-thrift in Lean 4

The Go code of the repository is modelled function by function in Lean 4; the properties in `properties.jsonl` are proved of the model for all inputs, states and
executions. `MANIFEST.json` maps each property to its theorems.

## Architecture

The Go code is layered, and the model follows the layers.

1. **Bytes and integers.** `byte`, `int16`, `int32`, `int64`, `uint64`, `int` are `BitVec 8/16/32/64`
   (Go `int` is 64 bit, i.e. amd64/arm64). Go conversions are `setWidth` / `signExtend`; signed comparisons go through `toInt`.
   Strings and byte slices are `List (BitVec 8)`. Floats are their IEEE bit patterns.
2. **`bufio.Reader` calls** (`Model/Byte.lean`): code that reads bytes is a tree of calls
   (`BProg`: Peek, Discard, ReadByte, io.ReadFull). It has two interpretations:
   - *flat*: a byte list and the way the stream ends (an error, or "blocks for ever");
   - *chunked* (`Model/Bufio.lean`): the algorithms of `bufio.Reader` (buffer, sticky error, `fill`) over an
     `io.Reader` scripted as an arbitrary sequence of Read results.
   One simulation theorem relates them for every program (C22), so everything else is proved on flat streams.
3. **`thriftwire.Reader` / `Writer` calls** (`Model/Wire.lean`): code that uses the interfaces (Skip, Marshal, Unmarshal) is a
   tree of interface calls (`RProg`, `WProg`) whose continuation receives the answer *or the error* of the call.
   Implementations (binary strict/non-strict, compact, memo) answer the calls. Recursion that Go does on the
   data or the type is bounded by a fuel argument; running out of fuel is a distinct outcome `diverge`, and
   termination is a theorem ("with enough fuel never `diverge`"), not an assumption.
4. **Protocols**: `Model/Binary.lean`, `Model/Compact.lean`, `Model/Varint.lean`, `Model/WireBufio.lean`: one definition per Go method.
5. **`bufio.Writer`** (`Model/BufWriter.lean`, `Model/ByteW.lean`): buffer, sticky error, an arbitrary transport, optional Flusher. C74 and C75 refine the two: `Model/Memory.lean` and `Model/MemoryW.lean` have the
   arrays behind them, and slices that point into these arrays.
6. **Reflection layer** (`Model/GoType.lean`, `Model/Fields.lean`, `Model/Arshal.lean`): Go types are a table
   `TypeId → description` (so recursive types are representable); Go values are finite trees. Panics are an explicit outcome.
   `Model/Heap.lean` has Marshal and Unmarshal again on a memory in which pointers, slices and maps may be shared or cyclic.
7. **Goroutines** (`Model/Concurrent.lean`): the functions of the reflection layer again, as programs over the state that goroutines share
   (cache, heap of arshalers, `once` and field table of each struct arshaler). Steps of goroutines are interleaved in any order.
8. **Memo** (`Model/Memo.lean`), **error texts** (`Model/ErrorText.lean`), **generated String methods** (`Model/Stringer.lean`), the **generator of zmemo.go** (`Model/MemoGen.lean`).
9. **thriftfile** (`Model/Token.lean`, `Model/Utf8.lean`, `Model/Scanner.lean`, `Model/Syntax.lean`, `Model/Parser.lean`): scanner on bytes; the parser is a program over
   five operations on its scanner, so that it can be run on the scanner and on a list of tokens.

Specifications independent of the code live in `Verif/Spec/`: wire values `TVal`, the binary and compact encodings written
from the Thrift specification documents, the relations "represents" and "same value after a round trip", ULEB128, the tag grammar, UTF-8, the lexical grammar and
the grammar of .thrift files, the first error of a source, what a memory holds, what an error may say; `Example.lean`, `HeapExample.lean` and `IdlExample.lean` are for the examples beside the theorems.
Property theorems live in `Verif/Props/`, helper lemmas in `Verif/Proof/`. Each property theorem stands beside examples that show that its hypotheses can be met by cases
that are not trivial.

## Properties

| id | title | status | theorems in | proof |
|----|-------|--------|-------------|-------|
| C01 | Binary Marshal/Unmarshal round trip | proved | Props/RoundTrip | the tree of calls of Marshal is the linear list of calls of a wire value; the bytes of the writer are the spec encoding; the reader on the spec encoding answers these calls; Unmarshal on those answers is a pure function; applied to a marshalled value it gives the same value again. Inductions on values and fuel. |
| C02 | Compact Marshal/Unmarshal round trip | proved | Props/RoundTrip | as C01, with the compact writer and reader. |
| C03 | Skip consumes exactly one value | proved | Props/Skip | induction over wire values with the relation `Holds` (the reader, in this state, answers the calls of this value). |
| C04 | Unmarshal and Skip agree on extent | proved | Props/Decode | a successful Unmarshal makes exactly the calls of the value. |
| C05 | Truncated input is always an error | proved | Props/Hostile, Props/Robust | success on a prefix would be the same success on the whole; with exact consumption a contradiction. |
| C06 | Skip terminates with work linear in the input | proved | Props/Robust | a measure of bytes, induction on fuel. |
| C07 | Unknown fields are ignored | proved | Props/Decode | absorption function on wire values; unknown fields do not occur in it. |
| C08 | Wire type mismatch is rejected | proved | Props/Decode | decoding function on wire values fails at a mismatch; call discipline (C52). |
| C09 | Absent fields keep their previous value | proved | Props/Decode | absorption function. |
| C10 | Lists and sets are replaced, not merged | proved | Props/Decode | absorption function. |
| C11 | Map decoding merges by key | proved | Props/Decode, Props/Keys | absorption function. |
| C12 | Which fields Marshal writes, and in what order | proved | Props/RoundTrip, Props/Zero | calls of the fields in the order of the sorted table. |
| C13 | Marshal fails fast and reports the writer's error | proved | Props/ArshalErr | structural predicate on trees of calls: after an error answer no further call, and the error is wrapped. |
| C14 | Unmarshal fails fast and reports the reader's error | proved | Props/ArshalErr | as C13. |
| C15 | Invalid top-level arguments cause no I/O | proved | Props/ArshalErr | case analysis. |
| C16 | Unsupported Go types are never silently dropped | proved | Props/Marshal | induction on types and values. |
| C17 | Struct tag grammar | proved | Props/Tag | characterisation of the strings the tag parser accepts, both directions. |
| C18 | ReadUvarint/ReadVarint agree with encoding/binary | proved | Props/Varint | induction over bytes; the fast path on Peek against the loop of encoding/binary. |
| C19 | Varint and zigzag codecs are exact | proved | Props/Varint | independent ULEB128 and zigzag specification; induction. |
| C20 | Next returns exactly n bytes or a definite error | proved | Props/WireBufio | case analysis on the stream. |
| C21 | ReadString/ReadBytes of any length | proved | Props/WireBufio | induction over the loop of reads. |
| C22 | Results do not depend on how the transport fragments data | proved | Props/Bufio | simulation between the bufio.Reader algorithm over scripted reads and a flat list of bytes, for every program of calls. |
| C23 | A reader does not wait for bytes beyond the value | partial | Props/Skip, Props/WaitU | flat streams that end by blocking; positive for binary; witnesses for compact, and the exact condition by a predicate "the reader waits somewhere in this value" (Stuck) followed through Skip and Unmarshal. |
| C24 | Binary message headers | proved | Props/Binary | case analysis, BitVec. |
| C25 | Compact message headers | proved | Props/Compact | case analysis, BitVec. |
| C26 | Compact field headers | proved | Props/Compact | BitVec arithmetic on deltas. |
| C27 | Compact container headers | proved | Props/Compact | BitVec. |
| C28 | Compact struct nesting is balanced | proved | Props/Compact | stack invariant over arbitrary call sequences. |
| C29 | Compact type codes are faithful | proved | Props/Compact | whole tables. |
| C30 | Byte-exact conformance to the Thrift protocol specifications | partial | Props/Binary, Props/Compact, Props/Numbers | encodings written from the specification documents; induction over values. |
| C31 | A failing transport never corrupts the written prefix | proved | Props/BufWriter | invariant over arbitrary histories of a bufio.Writer on an arbitrary honest transport. |
| C32 | Flush delivers everything and flushes the transport | partial | Props/BufWriter, Props/ShareW | as C31. |
| C33 | Reset makes a reader or writer as good as new | partial | Props/BufWriter, Props/Share | simulation between the reset and a new state. |
| C34 | Memo replays what was written | proved | Props/Memo | `Holds` for the memo. |
| C35 | Memo breakpoints cut at the exact step | proved | Props/Memo | counting invariant. |
| C36 | Arshaler construction terminates exactly when it should | proved | Props/Lookup | well-foundedness of the relation 'is looked up by'; divergence for every fuel. |
| C37 | Concurrent first use is safe | proved | Props/Concurrent | rely-guarantee refinement of each goroutine by the sequential program, lifted to all interleavings. |
| C38 | Marshal terminates | proved | Props/Marshal | a measure of values and types; divergence for every fuel of the bad type. |
| C39 | Parse is total | proved | Props/Parse | every loop of scanner and parser consumes bytes; the panic does not leave `def`. |
| C40 | Tokens tile the source | proved | Props/Scan | invariant of the scanner. |
| C41 | Parse accepts exactly the grammar | proved | Props/Parse | parser on tokens against a grammar relation: soundness, completeness, uniqueness. |
| C42 | Errors are reported and sorted | proved | Props/Parse | every report is in the result; less is an order. |
| C43 | Comments and layout do not matter | proved | Props/Layout | lexing of a text piece by piece; related scanners. |
| C44 | Errors in one definition do not hide the next | proved | Props/Resume | resynchronisation, on the sequence of all tokens. |
| C45 | Declared sizes do not drive allocation | proved | Props/Load | counting invariant. |
| C46 | String methods are total and unambiguous | proved | Props/Numbers, Props/Stringer | whole tables and a general argument for the numbers outside. |
| C47 | Back-to-back messages | proved | Props/Skip | composition of C03 and C01. |
| C48 | Scalar codecs are bit-exact | proved | Props/Binary, Props/Compact | BitVec. |
| C49 | No panic on hostile wire data | proved | Props/Hostile, Props/Robust | the model has an explicit panic outcome; it is unreachable. |
| C50 | JoinProtocol joins | proved | Props/Binary | corollary. |
| C51 | The outcome of Unmarshal is determined by the wire value | proved | Props/Decode | decoding function on wire values. |
| C52 | Readers are called by the grammar | proved | Props/Discipline | predicate on trees of calls for all answers. |
| C53 | Unmarshal does work linear in the input | proved | Props/Hostile | as C06. |
| C54 | Marshal accepts exactly the values that stand for a wire value | proved | Props/Marshal | representation relation between Go values and wire values. |
| C55 | Error texts are stable and informative | proved | Props/ErrorText | text functions. |
| C56 | The scanner implements the lexical grammar | proved | Props/Scan | lexical grammar as a relation; the scanner meets it. |
| C57 | Errors have the right line and column | proved | Props/Parse, Props/Scan | line table against counting newlines. |
| C58 | Messages sent through any working transport are received | proved | Props/EndToEnd | compose C31/C32 (writer), C01/C02 (values), C24/C25 (headers) and C22 (fragmentation) along the calls. |
| C59 | A value that has been through Marshal and Unmarshal once is not changed by going through them again | proved | Props/Canon | RoundTrip (what a value comes back as, C01/C02) is shown idempotent: its result has the type, the sizes, surviving keys, stands for a wire value (Rep), and comes back as itself up to spare capacity (SameValue). Rep is shown unique under distinct ids and invariant under SameValue, so the bytes are the same. |
| C60 | Types may change between writing and reading | proved | Props/Evolve | The wire value that stands for the value (Rep) has no mismatch with the type read (no_mismatch, by induction on the mismatch), so decoding it succeeds (dec_total); what it decodes to is described by Carries (decodes_carries, by induction on Rep, peeling pointers of the type read). |
| C61 | The error of Parse says where the first error is and how many there are | proved | Props/ParseText | Order and positions of the errors from C42 and C57, nil from C41; itoa by induction (itoa_decimal); for the last part, line and column have no colon, so the text splits in one way (colon_split). |
| C62 | What the readers accept, exactly | proved | Props/Accept | Each Reader method is shown exact (Exact: it succeeds exactly in front of described bytes and consumes them), composed along the methods' code. A program that follows the grammar of Reader calls (C52) and gets to the end has read some wire value (Path.splits), so Skip and Unmarshal return nil only in front of one; the converse is C03 and C51. |
| C63 | The errors of the parser are to the point | proved | Props/FirstError | PProg.first gives the state at the first error of a program over the sequence of tokens. A predicate Full extends the one used for C41 (Good): what is consumed before the first error, with any expected token, begins a word of the grammar that ends with sample tokens; proved along all parse functions. That the found token is wrong follows since the parser looks at one token only (first_look) and accepts every word of the grammar (Eats). The positions of tokens (LexPos) turn this into a statement about the bytes of the source. |
| C64 | Unmarshal writes to nothing but what its argument leads to | proved | Props/Heap | The memory model makes every write explicit. An invariant (Fenced) says that memory outside a set S is as it was and that nothing in S refers to anything outside; with S what the argument leads to, and all that is new, it is kept by every assignment, and so by every step of Unmarshal (induction on fuel). |
| C65 | Without sharing, Unmarshal in memory is Unmarshal on trees | proved | Props/Heap | A separation style relation Owns between trees and memory lists the addresses of a value; the two programs are related call by call (Rel) with a postcondition that has the new tree, its addresses and the frame. Elements of slices, the variables k and v of the map loop, and struct fields are places whose addresses are disjoint. More fuel does not change the outcome (HeapLe). |
| C66 | Marshal sees values, not sharing | proved | Props/Heap, Props/HeapCycle | The program of Marshal on memory is equal to the one on trees, by induction on fuel. Cycles: by induction on fuel, what was written successfully is accessible in the relation of parts to be written. |
| C67 | Marshal and Unmarshal make a deep copy | proved | Props/Heap | C01 and C02 with C65 and C66. |
| C68 | Errors of Marshal and Unmarshal name what is at fault | proved | Props/Blame | A predicate on programs (UBlames, WBlames) says that every error they return is explained, either by a call that failed just before or by the types; it holds for every step of unmarshal and marshal, by induction on fuel; a run with any logged Reader or Writer then gives the theorem. |
| C69 | What Unmarshal leaves behind when it stops half way | proved | Props/Partial | Spec/Partial.lean: Reads says which successful calls read a wire value, Stops what a variable holds after a part of them. Proof/Partial.lean: weakest preconditions with the list of successful calls as ghost state; every step of unmarshal meets them, by induction on fuel. Since unmarshal stops at the first error (FailFast), a run with a recorded Reader gives the theorems. C69_untouched follows from these and C09_nested. |
| C70 | A reader goes on when its source grows | proved | Props/Grow | Spec/Grow.lean: Growing, the reachable states. Proof/Clean.lean: every operation of bufio.Reader on a quiet source leaves no error pending if no peek asks for more than the buffer can hold (Small); all methods of both readers are Small; so a reachable state simulates the flat stream of what is left (Proof/Bufio.lean). |
| C71 | The conformance test TestProtocol passes | proved | Props/ThriftTest | Model/ThriftTest.lean: TestProtocol with the buffer shared between writer, reader and test, and its table. Proof/ThriftTest.lean: each part of a subtest runs through (Runs) from the state the previous one left; writer by tracking the ideal writer, reader by C70's clean states, values by settled_settles (C57) and C03. Proof/ThriftTable.lean and Props/ThriftTest.lean: the sixteen elements of the table meet the hypotheses. |
| C72 | Parse returns exactly the trees that can be written down | proved | Props/Writable | Spec/Writable.lean states the conditions; Proof/Writable.lean: tokens with texts of theirs that are a file of the grammar give a writable tree; a writable tree gives such tokens, and the texts of the tokens with a blank behind each are a source whose lexemes they are (maximal munch stops at a blank, C43). With C41. |
| C73 | Skip recurses as deep as the value is nested, and no deeper than the input is long | proved | Props/Stack | Model/Stack.lean repeats Skip with a bound on the frames; Spec/Depth.lean defines the depth of a wire value. Induction on the value for C73_exact; for arbitrary bytes, every call of a Reader method behind which Skip calls itself uses up at least one byte. |
| C74 | What is read from the buffer is read before the buffer is overwritten | proved | Props/Memory | Model/Memory.lean: bufio.Reader on its array; the two readers again, with slices instead of bytes. Proof/Memory.lean: refinement, every call on the array does to the part buf[r:w] what the model of bufio.Reader with a value does, and slices are looked up while the part they name is still there. Composed with C22. |
| C75 | What is written does not depend on the memory it passes through | proved | Props/MemoryW | Model/MemoryW.lean: bufio.Writer on its array, the scratch array, slices, append in place or to new memory. Proof/MemoryW.lean: refinement to Model/BufWriter.lean; appending to AvailableBuffer() leaves buf[:n] alone and Write copies the appended bytes onto themselves, or, if they were moved to new memory, writes them as any others. The bytes by C31. |
| C76 | Any io.Reader will do | proved | Props/Feed | Model/Feed.lean: bufio.Reader over any Read function, and Read of bufio.Reader itself. Spec/Feed.lean: the contract of io.Reader. Proof/Feed.lean: simulation by the plain stream for fill, ReadByte, Peek, Discard, io.ReadFull and hence for the readers; a bufio.Reader keeps the contract if what is below it does. |
| C77 | Protocol readers share a bufio.Reader with the caller | proved | Props/Share | Model/Share.lean: a heap of bufio.Readers, each on a transport or on another bufio.Reader; NewReader, Reset, and clients. Spec/Share.lean: the same clients on plain streams. Proof/Share.lean: invariant (every bufio.Reader in use owns its transport), simulation step by step, with C76. Mixed streams by C01, C02 and C77_readers. |
| C78 | Protocol writers share a bufio.Writer with the caller | proved | Props/ShareW | Model/ShareW.lean: the caller's bufio.Writer, protocol writers with or without one of their own above it, and a bufio.Writer as an io.Writer, with the count that Write returns. Spec/ShareW.lean: one list of bytes. Proof/ShareW.lean: step by step with BufWriter.Good; a bufio.Writer is honest and logs what it counts. Wrapped: C31 and C32 above that transport. |
| C79 | TestArshaler for every type and value: a break at any step is reported by Marshal and Unmarshal | proved | Props/ArshalTest, Props/MemoBreaks | Model/ArshalTest.lean: the test, with the table as parameter. Proof/MemoCut.lean: Unmarshal names the method that failed (named_unmarshal) and, at a Reader that follows the calls of a value for a while and then fails, returns just that (unmarshal_cut); Marshal at a Memo with a breakpoint (run_cut_exact). Proof/Checked.lean: a UUID read from such a Memo has 16 bytes, so that C49 applies and the variable stays valid from one breakpoint to the next. |
| C80 | Skip at a Memo | proved | Props/MemoSkip | Proof/MemoSkip.lean: skip_answers, Skip at any Reader that answers the calls that skip a value (induction on the value); follow, a program that follows a script makes the script's next call; the Memo answers SkipString where it answers ReadString, and panics where it answers ReadBytes. |
| C81 | How deep Unmarshal recurses | proved | Props/StackU | Model/StackU.lean: the arshalers with room for d frames. Proof/StackU.lean: Cuts, a limited program is the unlimited one or panics on the way; AgreeU with Lowers of C73 for any bytes; Two, too little room and enough, over values that the stream holds. The unknown field is C07. |
| C82 | Marshal and Unmarshal take the same number of frames | proved | Props/StackM | Spec/Room.lean: Room and RoomV, the levels of a wire value in a Go type and of a Go value. Model/StackM.lean: marshalS. Proof/StackM.lean: OrPanics, by induction on the calls; Rep.room, the two notions agree on a Go value and the wire value it stands for; unmarshalS_room as in C81. |
| C83 | How deep Parse recurses | proved | Props/StackP | Model/StackP.lean: the parser with a number of frames left in type_ and value; an overflow ends the program. Spec/DepthP.lean: the depth of a tree. Proof/StackP.lean: PFits, what a limited part of the parser is to the part itself, with the frames that its result tells; by induction on the calls. |
| C84 | Separators, and what a tree tells of its source | proved | Props/Strip | Spec/Strip.lean: tokens without separators. Proof/Strip.lean: the grammar without separators is unambiguous (Clear, with the tokens that may not follow). Proof/Told.lean: the tree tells the tokens. Proof/Semi.lean: without semicolons it is the same tree. Over C41 and C56. |
| C85 | How long the two encodings of the same value are | proved | Props/Size | Proof/Size.lean: the lengths of the two encodings of a wire value by induction; C54 gives that Marshal makes the same calls on both writers, C30 what they write. |
| C86 | Sources one after the other | proved | Props/Join | Proof/Join.lean: lexemes before a newline do not depend on what follows it; the grammar of files under concatenation, and by the unambiguity of C84 that no header follows a definition. |
| C87 | The tokens determine the tree and the token of each error | proved | Props/Places | Proof/ParseSync.lean: the parser commutes with a change of the positions of the tokens (two programs in step, positions related by a function); Proof/ParsePlaces.lean: the run on numbered tokens, carried to the source; sorted permutations under a strictly monotone map. |
| C88 | The order in which Go visits the entries of a map makes no difference | proved | Props/MapOrder | Spec/MapOrder.lean: wire values up to the order of map entries; Proof/MapOrder.lean: representations of equal values are equal up to this order, and equally long; Proof/MapSame.lean and DecodeOrder.lean: maps as sets of entries, decoding in another order gives the same, by induction on the wire value; Proof/OrderRead.lean: a mismatch is found in the other order too, keys that survive are apart on the wire. |
| C89 | Parse does work, and reports errors, in proportion to its source | proved | Props/ParseWork | Spec/ParseWork.lean: the operations of the parser with weights; Proof/ParseWork.lean: for each parse function what it costs beyond what the tokens that it consumes pay for, if it returns and if it panics, by induction on the depth and the loops, with the weights left open; the three bounds are instances. Proof/ScanWork.lean: each error of the scanner is paid for by a byte that is read or passed. |
| C90 | Marshal makes calls in proportion to what it writes | proved | Props/MarshalWork | Spec/Counted.lean: a Writer that counts; Proof/MarshalWork.lean: the calls for a wire value against the lengths of its two encodings, by induction on the value; with C54 and C30. |
| C91 | What it means that TestProtocol passes | proved | Props/TestPass | Spec/TestPass.lean says which calls have to succeed; Proof/TestPass.lean: what has failed stays failed and what ends a subtest early has failed, so that a passing test can be taken apart step by step. |
| C92 | The tree that Parse returns is made of the tokens of its source | proved | Props/TreeSize | Proof/TreeSize.lean: for each function of the parser, the nodes of what it returns against the tokens it consumes (five for each), and its texts as a part of theirs; nothing is left out by induction on the grammar (C39). |
| C93 | The generator of zmemo.go writes what is in the repository, and is right for other interfaces too | proved | Props/MemoGen | Proof/ZMemo.lean: the text, method by method (evaluated by the kernel). Proof/MemoGen.lean: each method of the present interfaces at any Memo. Proof/MemoAny.lean: any interface, by induction on the calls. |
| C94 | Receiving the same value again changes nothing | proved | Props/Again | Proof/Again.lean: by induction on the wire value, with C88's lemmas for what is decoded into zero values; a struct field holds in the end what the one field with its id brought; the entries of a map are stored over themselves. |
| C95 | The order in which fields come makes no difference | proved | Props/AnyOrder | Proof/AnyOrder.lean: as C88, by induction on the wire value; a struct field holds in the end what the one field with its id brought (lemma of C94), wherever it stands. |
| C96 | A struct may be read in two parts | proved | Props/Merge | Proof/Merge.lean: the decoding function of Proof/Dec.lean on the fields of a list that is cut in two, by induction on the fuel; Props/Merge.lean. |
| C97 | What Marshal writes can be taken apart in one way only | proved | Props/Apart | Skip consumes exactly what Marshal wrote (C03) and its result is determined by what it reads; Proof/Apart.lean, with streams by induction on the number of values; Props/Apart.lean. |
| C98 | A map may be read in two parts | proved | Props/MergeMap | Proof/MergeMap.lean: the decoding function of Proof/Dec.lean on entries that are cut in two, as an equation; for fields by induction on the fuel; Props/MergeMap.lean. |

`partial` means that the code violates the property: a theorem proves the violation with a concrete witness, and the `_partial` theorems prove what remains true.

## Behaviour of the code that the proofs brought to light

Each is proved as a witness theorem (named in brackets) or follows from the model directly.

- The compact reader may wait for bytes behind a complete value or message on an idle connection, because ReadUvarint peeks ten bytes
  (`C23_compact_message_blocks`, `C23_compact_string_blocks`).
- The compact writer writes a negative sequence id as ten bytes instead of five (`C30_compact_message_violated`), and field ids whose difference wraps around int16 in short form
  (`C30_compact_wrap_violated`).
- `Reset` of the compact writer loses the underlying Flusher, so that `Flush` no longer flushes the transport (`C32_compact_violated`, `C33_compact_writer_violated`).
- Marshal accepts struct types with two fields of one id; Unmarshal of the result gives a different value (`C01_needs_distinct_ids`).
- `required` is not enforced by Unmarshal (`C09_required_not_enforced`). A zero optional field of a type like `[]chan int` is left out instead of rejected (`C16_zero_slice_left_out`).
- Marshalling what came back need not give the bytes it came from: an empty slice, map or byte slice in an optional field is written, comes back nil and is then left out
  (`C59_first_time_differs`). From then on nothing changes, unless `IsZero` of reflect takes negative zero for zero (`C59_needs_zero_law`).
- `type T []T` makes Marshal and Unmarshal recurse for ever (`C36_diverges`); so does marshalling `R{}` of `type R struct { X *R "1,required" }` (`C38_diverges`).
- If two byte slices in the target of Unmarshal share an array, the second read overwrites what the first has read (`C65_sharing_matters`). Marshal of a value that points to itself does not return
  (`C66_cycle_diverges`, `C66_no_cycle`).
- Skip, Unmarshal and Parse recurse as deep as the input is nested; the depth is linear in the input and not limited.
- An exported field without a tag makes its struct an error.
- Compact message types are truncated to 3 bits; binary message headers ignore bits 8-15; lengths of 2^31 or more are truncated when written.
- Both readers accept more than the specification allows (C62 says exactly what): a container size that is negative as a Go `int` is an empty container, any byte but 0 is true; in the compact protocol also
  padded varints, integers too large for their type (cut to it), a stop byte with anything in its upper half, element type 0.
- Memo: a breakpoint of b lets b-1 steps through; WriteStructEnd makes two steps; reading something else than what was written panics; Skip of a value written with WriteBytes panics
  (`C34_skip_bytes_panics`); `Reset` drops the breakpoint.
- Scanner and parser: after a newline or an unknown escape in a string the token before it is reported again (`C43_broken`); "0x" is an INT and "1e" a FLOAT; `definition_beg` and `definition_end` are
  keywords by accident (`C56_keywords`); the second `case '/'` (scanner.go:142-144) cannot be reached; `want` skips a token even if it begins a
  definition, which is then lost (`C44_swallows`); an error at the end behind a final newline is reported on the line before; a NUL in the code gives two errors.

## Trusted base

- Lean's kernel. No axioms besides `propext`, `Classical.choice` and `Quot.sound`, no `sorry`, no `native_decide`, no `bv_decide`. Axioms by theorem:

- **propext, Classical.choice, Quot.sound** (309 theorems): C01_binary_round_trip, C01_needs_distinct_ids, C02_compact_round_trip, C03_skip_binary, C03_skip_compact, C04_binary, C04_compact, C04_extent, C05_skip_binary, C05_skip_compact, C05_unmarshal_binary, C05_unmarshal_compact, C06_binary, C06_compact, C07_unknown_fields, C08_rejected, C08_semantic_error, C09_absent_fields, C09_required_not_enforced, C10_replaced, C11_equal, C11_map, C11_merge, C11_nested, C12_fields_written, C12_zero, C13_marshal_fail_fast, C14_success, C14_unmarshal_fail_fast, C15_marshal_bad, C15_unmarshal_bad, C15_value_or_pointer, C16_error, C16_never_accepted, C16_unmarshal, C16_unmarshal_field, C16_zero_slice_left_out, C17_accepted, C17_dash, C17_rejected, C17_terminates, C17_unexported, C18_ReadUvarint, C18_ReadVarint, C19_uvarint_roundtrip, C19_varint_bytes, C19_varint_length, C19_varint_roundtrip, C19_wire_uvarint_roundtrip, C19_wire_varint_roundtrip, C21_readBytes_ok, C21_readString_ok, C22_binary, C22_compact, C22_flat_binary, C22_flat_compact, C22_method_binary, C22_method_compact, C23_binary_holds, C23_binary_message, C23_binary_unmarshal, C23_binary_value, C23_compact_exact_partial, C23_compact_message_exact_partial, C23_compact_partial, C23_compact_unmarshal_exact_partial, C24_message_round_trip, C24_nonstrict_rejects, C24_strict_rejects, C25_message_round_trip, C26_field_header, C27_map_header, C27_set_header, C28_write, C28_write_unbalanced, C29_unknown_codes, C30_binary_message, C30_binary_types, C30_binary_value, C30_compact_message_exact_partial, C30_compact_message_partial, C30_compact_types_partial, C30_compact_value_exact_partial, C30_compact_value_partial, C31_binary, C31_compact, C32_binary, C32_compact_exact_partial, C32_compact_noReset_partial, C32_compact_partial, C34_unmarshal, C35_marshal, C35_unmarshal, C36_diverges, C36_exactly, C36_terminates, C37_alone, C37_no_deadlock, C37_no_race, C37_same_arshaler, C37_table_once, C38_diverges, C38_does_not_return, C38_finite, C38_infinite, C38_terminates, C39_total, C40_gaps, C40_tiles, C41_grammar, C41_unique, C42_errors, C43_broken, C43_errors, C43_layout, C43_lex, C44_before, C44_resume, C44_swallows, C45_binary, C45_compact, C46_compactType, C46_constants, C46_messageType, C46_token, C46_type, C47_binary, C47_compact, C48_binary, C48_compact, C49_binary, C49_compact, C49_skip, C49_unmarshal, C49_unmarshal_idle, C49_unmarshal_no_panic, C49_unmarshal_valid, C50_join_nonstrict_strict, C51_outcome, C51_success, C52_unmarshal, C53_binary, C53_compact, C54_accepts, C54_any_writer, C55_cause, C55_informative, C55_prefix, C56_keywords, C56_lexical, C56_unique, C56_utf8, C57_parse, C57_scan, C58_binary, C58_compact, C59_binary_settles, C59_compact_settles, C59_first_time_differs, C59_needs_zero_law, C60_binary_evolves, C60_compact_evolves, C61_kind, C61_located, C61_nil, C61_text, C62_canonical, C62_canonical_message, C62_message_binary, C62_message_compact, C62_prefix_free, C62_skip_binary, C62_skip_compact, C62_skip_rejects, C62_unmarshal_binary, C62_unmarshal_compact, C62_unmarshal_meaning, C62_value_binary, C62_value_compact, C63_first, C63_found, C64_unmarshal_frame, C65_bad_arguments, C65_memory_to_tree, C65_sharing_matters, C65_tree_to_memory, C66_cycle_diverges, C66_cycle_does_not_return, C66_ends, C66_marshal_memory, C66_nil, C66_no_cycle, C66_sharing_invisible, C67_binary_copy, C67_compact_copy, C68_found, C68_marshal, C68_unmarshal, C69_read, C69_stopped, C69_untouched, C70_binary, C70_compact, C71_binary, C71_compact, C71_table, C71_test_is_lenient, C72_range, C73_binary, C73_binary_unlimited, C73_compact, C73_compact_unlimited, C73_exact, C74_binary, C74_compact, C74_session, C75_binary, C75_binary_bytes, C75_compact, C75_compact_bytes, C76_binary, C76_compact, C76_wrapped_binary, C76_wrapped_compact, C79_marshal, C79_table, C79_test, C79_unmarshal, C79_whole, C80_bytes, C81_binary, C81_binary_unlimited, C81_compact, C81_compact_unlimited, C81_cuts, C81_exact, C81_value, C82_binary, C82_compact, C82_cuts, C82_marshal, C82_unmarshal, C83_cuts, C83_enough, C83_exact, C83_unlimited, C83_valid, C84_same, C84_semicolons, C85_message, C85_ratio, C85_reaches_longest, C85_reaches_shortest, C86_append, C86_join, C86_needs_newline, C87_order, C87_places, C88_accepts, C88_binary, C88_binary_back, C88_compact, C88_compact_back, C88_duplicate_keys, C88_unmarshal, C89_errors, C89_next, C89_work, C90_binary, C90_compact, C90_counting, C90_reaches, C91_header, C91_leaves, C91_passed, C91_type, C92_size, C92_texts, C94_again, C94_binary, C94_compact, C94_nan, C95_binary, C95_compact, C95_order, C95_repeated_field, C96_binary, C96_commute, C96_first_error, C96_merge, C96_split, C97_binary, C97_binary_alike, C97_binary_stream, C97_compact, C97_compact_alike, C97_compact_stream, C97_wire_types, C98_field, C98_first_error, C98_merge, C98_split, Share.C77_mixed_stream, Share.C77_readers, Share.C78_mixed_stream, Share.C78_shared, Share.C78_stack_honest, Share.C78_wrapped_binary, Share.C78_wrapped_compact.
- **propext, Quot.sound** (61 theorems): C03_skip_any, C09_nested, C19_accepts_exactly, C19_rejects, C19_truncated, C19_uvarint_bytes, C19_uvarint_length, C20_next_negative, C20_next_ok, C20_next_short, C21_readBytes_negative, C21_readBytes_short, C21_readString_negative, C21_readString_short, C23_compact_message_blocks, C23_compact_string_blocks, C25_rejects_protocol, C25_rejects_version, C26_field_header_invalid, C27_invalid, C28_read, C28_read_unbalanced, C29_type_codes, C30_compact_message_violated, C30_compact_wrap_violated, C32_compact_violated, C33_binary_reader, C33_binary_writer, C33_compact_reader, C33_compact_writer_exact_partial, C33_compact_writer_partial, C33_compact_writer_violated, C34_replay, C35_reader, C35_writer, C35_writer_free, C35_writer_stays, C38_zero_needs, C52_skip, C55_text, C55_text_untyped, C55_two_renderings, C70_needs_quiet, C74_next_overwritten, C74_owned, C76_bufio, C76_source, C79_passed, C80_break, C80_break_fresh, C80_fresh, C80_skip, C93_any, C93_panics, C93_reader, C93_text, C93_writer, Share.C32_reset_to_bufio_violated, Share.C33_reset_to_bufio_violated, Share.C77_needs_4096, Share.C78_needs_4096.
- **propext** (4 theorems): C34_reads_past_end, C34_skip_bytes_panics, C37_ends, C50_join.
- **none** (1 theorems): Share.C77_reset_takes_along.

- That the definitions in `Verif/Model` say what the Go code says. Every definition cites file and lines.
- Modelled completely: encoding/thriftwire (bufio.go, varint.go, skip.go, protocol.go, types.go and the generated String methods), encoding/thriftbinary, encoding/thriftcompact,
  thrift (arshal.go, arshal_default.go, fields.go, errors.go), internal/thriftmemo (memo.go, zmemo.go), tools/thriftfile (scanner.go, tokens.go, parser.go, nodes.go (but for its marker methods, which do nothing), token_string.go).
- Not modelled: thrift/client.go (an interface only), the main function of internal/thriftmemo/memogen.go (the rest of the generator is: C93),
  all tests (but testing/thrifttest, the conformance test of protocols, and TestArshaler are modelled).
- The standard library as the model has it: the algorithms of `bufio.Reader` and `bufio.Writer` of Go 1.21, `encoding/binary`, `io.ReadFull`, `strconv.ParseInt`, `unicode/utf8.DecodeRune`,
  `go/token` line tables, `reflect` (`IsZero`, `SetLen`, `Grow`, `Set`, map operations), `sync.Map`, `sync.Once`.
- Parameters of the model that stand for what the library leaves open or what is not modelled, with the laws assumed of them: `Env.sort` (a sorted permutation, which depends on the keys only),
  `IdlEnv.sort` (a permutation, sorted if the order is one), `Env.grow`, `Env.widen`/`narrow` (no laws), `IsZero` methods (functions), the tables of package unicode (no laws;
  `AsciiTables` where a theorem says so), `%#U` (any text), transports (any behaviour that respects the contract of io.Reader or io.Writer).
- Maps: a map value is the list of its entries in the order in which `MapRange` gives them at the time. Theorems about all values are thus theorems about all orders.
- Simplifications: in all properties but C64 to C67 Go values are finite trees, without aliasing (two pointers to one variable, slices that share an array) or cycles, and what a failed read leaves in the
  target's byte slice or UUID is left out. C65 and C66 say for which memory this is right; `Model/Heap.lean` has neither simplification, but no pointers into the middle of a struct, and no unsafe ones.
  In all properties but C74 and C75 a slice of the buffer of a `bufio.Reader` or `bufio.Writer` is the bytes in it.
  The depth of the Go stack (but in C73 and C81 to C83) and memory are unlimited; in all properties but C77 and C78 `bufio.NewReader` of a `*bufio.Reader`, and `bufio.NewWriter` of a `*bufio.Writer`, makes a new one.
- Goroutines: operations on the shared state are atomic steps and sequentially consistent. The Go memory model guarantees that for programs without data races; `C37_no_race` shows that there is none on the
  field tables, and sync.Map and sync.Once are synchronised. The field table of a struct is read in one step. `Shared.writes` is a ghost variable that counts assignments.
- The recursion of Go functions is bounded by fuel in the model. Theorems that speak of results hold for every fuel that suffices; termination theorems give one.

## The model and the tests of the repository

What the tests in /repo expect of the code, the model does as well. These are comparisons on samples, to find mistakes in the model; no property rests on them.

- `TestArshaler` (thrift/arshal_test.go): the whole table, in Props/ArshalTest.lean (and for every type and value: C79). `TestProtocol` (testing/thrifttest): C71.
- `TestWireError`, `TestSemanticError`, `TestReadString`, `TestReadBytes`, `TestReadUvarint`, `TestReadVarint`, the table of compact types: Props/RepoTests.lean. `TestSkip`: C80. `TestMemo`: C34.
- `TestParser`, `TestScanner` (tools/thriftfile): `validate/testdata.txt` runs the model of `Parse` on files. On the 195 files below testdata/thrift it reports no error, on testdata/test.thrift the five errors
  announced there, at their places (this one also in Props/RepoTests.lean, by the kernel).

## Wrong programs

`seeded/LOG.jsonl` records one line per wrong program tried: the definition edited, the edit, the claim it breaks, the property theorems whose proofs failed (`failed`), where the build failed
(`failed_at`), and the theorems tightened because they did not notice.

- `failed_at` is what the build reported. `failed` is worked out from it: the property theorems whose proofs use, directly or not, a declaration of `failed_at`. The build stops at such a declaration, so the
  property theorems themselves were mostly not rebuilt; that one is in `failed` says that its proof no longer goes through as it stands, not that its statement was shown to be false of the wrong program.
- Lines with `how` are mechanical edits. Their `claim` was not chosen by hand: it is taken from `failed`.
- Correction: `failed` was at first worked out by the last part of names, so that a failure of `Binary.writes` also counted as one of `Compact.writes`, and so on. It is now worked out by module and full name, and
  only among declarations that use the definition edited. 1313 entries in 79 lines were removed, and the claims of 14 mechanical edits, which had been taken from such entries, were replaced. No edit made by hand
  lost the claim it was meant to break. Lines made before later changes of the model were left as recorded where the names no longer match.
