{"id": "C01", "title": "Binary Marshal/Unmarshal round trip", "statement": "If Marshal of a Go value to a thriftbinary writer returns nil, then Unmarshal of the written bytes (followed by anything) into a fresh zero value of the same type returns nil, consumes exactly those bytes, and produces the original value up to the documented normalisation: empty slices/maps/byte slices come back nil, a nil pointer that had to be written comes back as a pointer to a zero value, ignored fields and fields reported zero come back zero. This holds provided no struct type inside declares one field id twice (Marshal accepts such types), lengths fit in an int32, and no two keys of a map come back equal (only struct, pointer and float keys can).", "quantifier": "all Go types (nested and recursive structs, maps, sets, lists, pointers, all scalar kinds), all values, all map iteration orders, all trailing bytes, strict and non-strict protocol", "why_tests_cant": "Values and types are unbounded in size, nesting and recursion; tests only sample a handful of structs.", "anchors": ["thrift/arshal.go:Marshal,Unmarshal", "thrift/arshal_default.go", "encoding/thriftbinary/thriftbinary.go"]}
{"id": "C02", "title": "Compact Marshal/Unmarshal round trip", "statement": "Same as C01 for the thriftcompact protocol, including field-id deltas, bool fields folded into field headers and nested structs (any length; the stream after the value ends or goes on for nine bytes, see C23).", "quantifier": "all Go types, all values, all field ids (every int16), all nesting, all trailing bytes", "why_tests_cant": "Delta encoding and the per-struct id stack interact with every ordering and gap of ids at every depth; tests use ids 1,2,3,32,64.", "anchors": ["thrift/arshal_default.go", "encoding/thriftcompact/thriftcompact.go"]}
{"id": "C03", "title": "Skip consumes exactly one value", "statement": "thriftwire.Skip(r, t) positioned at the encoding of any wire value of type t returns nil and leaves the reader exactly after that value, with the reader's internal state as it was.", "quantifier": "all wire values of all types and depths, binary (strict or not) and compact, all following bytes", "why_tests_cant": "Skipping is what makes unknown fields safe; a single value shape that is mis-skipped desynchronises the stream and no finite test set covers all shapes.", "anchors": ["encoding/thriftwire/skip.go:Skip", "encoding/thriftbinary/thriftbinary.go:reader", "encoding/thriftcompact/thriftcompact.go:reader"]}
{"id": "C04", "title": "Unmarshal and Skip agree on extent", "statement": "Whenever Unmarshal succeeds at the encoding of a wire value it leaves the reader exactly where Skip of the same value would, whatever the Go target type.", "quantifier": "all wire values, all Go target types and previous target contents, both protocols", "why_tests_cant": "Requires comparing two traversals over all values and types.", "anchors": ["encoding/thriftwire/skip.go:Skip", "thrift/arshal_default.go"]}
{"id": "C05", "title": "Truncated input is always an error", "statement": "If the bytes of a wire value are cut at any point before the end, Skip of it and Unmarshal of it return an error; they never report success on a proper prefix.", "quantifier": "all wire values, all cut points, both protocols, all target types", "why_tests_cant": "Every cut point of every value must be covered.", "anchors": ["encoding/thriftwire/skip.go", "encoding/thriftwire/bufio.go", "encoding/thriftbinary/thriftbinary.go", "encoding/thriftcompact/thriftcompact.go"]}
{"id": "C06", "title": "Skip terminates with work linear in the input", "statement": "On any byte sequence whatsoever (valid or hostile) that ends, Skip returns after a number of Reader calls bounded by a constant times the number of bytes present, irrespective of the sizes declared in container headers.", "quantifier": "all byte inputs, all requested types, both protocols", "why_tests_cant": "Hostile inputs are unbounded; declared sizes up to 2^63 cannot be enumerated.", "anchors": ["encoding/thriftwire/skip.go:Skip"]}
{"id": "C07", "title": "Unknown fields are ignored", "statement": "Inserting fields whose ids the Go struct does not declare, anywhere in an encoded struct, does not change the result of Unmarshal.", "quantifier": "all struct types, all encoded structs, all unknown ids, all values of all wire types in them, all positions", "why_tests_cant": "Forward compatibility is a statement about all future schemas.", "anchors": ["thrift/arshal_default.go:makeStructArshaler", "encoding/thriftwire/skip.go"]}
{"id": "C08", "title": "Wire type mismatch is rejected", "statement": "If a declared field, list/set element, map key or map value arrives with a wire type different from the one its Go type maps to, Unmarshal returns a SemanticError carrying the offending wire type and does not interpret the bytes as another type.", "quantifier": "all Go types, all wire values with a different wire type", "why_tests_cant": "All pairs of target type and wire value at all depths.", "anchors": ["thrift/arshal_default.go"]}
{"id": "C09", "title": "Absent fields keep their previous value", "statement": "Unmarshal into a non-zero struct changes only the fields present on the wire; all other fields keep their previous value. A field tagged required that is missing on the wire is not reported.", "quantifier": "all struct types, previous values and encoded structs", "why_tests_cant": "All subsets of present fields.", "anchors": ["thrift/arshal_default.go:makeStructArshaler", "thrift/fields.go"]}
{"id": "C10", "title": "Lists and sets are replaced, not merged", "statement": "Unmarshal of a list or set yields a slice that depends only on the wire data: previous elements, previous length and stale data in spare capacity never show through.", "quantifier": "all element types, previous contents, capacities, growth policies and wire lists", "why_tests_cant": "Depends on all capacities/lengths/stale contents and on the runtime growth policy.", "anchors": ["thrift/arshal_default.go:makeSetListArshaler"]}
{"id": "C11", "title": "Map decoding merges by key", "statement": "Unmarshal of a map into an existing map keeps entries whose keys are not on the wire, and for a key on the wire decodes into the existing entry's value (or a zero value); with an empty wire map the target is unchanged. The size never exceeds old size plus wire size and no key appears twice.", "quantifier": "all key/value types, previous maps and wire maps (including duplicate keys on the wire)", "why_tests_cant": "All key collisions and orders.", "anchors": ["thrift/arshal_default.go:makeMapArshaler"]}
{"id": "C12", "title": "Which fields Marshal writes, and in what order", "statement": "Marshal of a struct writes exactly the declared fields that are required or not zero, each once, with strictly ascending ids when ids are distinct, regardless of Go declaration order.", "quantifier": "all struct types and values", "why_tests_cant": "All declaration orders, id sets and zero/non-zero patterns.", "anchors": ["thrift/fields.go:makeStructFields", "thrift/arshal_default.go:makeStructArshaler"]}
{"id": "C13", "title": "Marshal fails fast and reports the writer's error", "statement": "For any Writer, after a Writer method returns an error Marshal makes no further Writer calls and returns a SemanticError with action marshal whose Unwrap chain reaches that very error and names the failing method; the calls made before are a prefix of the calls an error-free run would make.", "quantifier": "all Go values, all Writers, all points of failure", "why_tests_cant": "Failure can occur at any of unboundedly many calls.", "anchors": ["thrift/arshal_default.go", "thrift/errors.go"]}
{"id": "C14", "title": "Unmarshal fails fast and reports the reader's error", "statement": "For any Reader, after a Reader method returns an error Unmarshal makes no further Reader calls and returns an error whose Unwrap chain reaches that very error; success is reported only if no call failed.", "quantifier": "all Go types, all Readers (arbitrary answers), all points of failure", "why_tests_cant": "Arbitrary reader behaviour over unboundedly many calls.", "anchors": ["thrift/arshal_default.go", "encoding/thriftwire/skip.go"]}
{"id": "C15", "title": "Invalid top-level arguments cause no I/O", "statement": "Marshal(nil), Marshal of a nil pointer, Unmarshal into nil, a non-pointer or a nil pointer return a SemanticError without calling any Writer/Reader method; Marshal(v) and Marshal(&v) behave identically.", "quantifier": "all argument values", "why_tests_cant": "All values and types.", "anchors": ["thrift/arshal.go"]}
{"id": "C16", "title": "Unsupported Go types are never silently dropped", "statement": "If a value to be marshalled is of an unsupported Go kind (int, uint, chan, func, interface, arrays other than [16]byte...), directly or behind pointers, or is a slice, set or map (even an empty one) with such elements, keys or values, or a struct with such a field (even a zero one) that is not ignored, or involves such a value, Marshal does not return nil; it returns an error if it returns. Unmarshal into one returns an error without reading; into a struct with such a field that is on the wire, an error. (A zero optional field of slice or map type is left out before its element type is looked at: Marshal then succeeds.)", "quantifier": "all types containing an unsupported kind, all values", "why_tests_cant": "All compositions of types.", "anchors": ["thrift/arshal_default.go:makeInvalidArshaler"]}
{"id": "C17", "title": "Struct tag grammar", "statement": "A field is accepted exactly when its thrift tag is a decimal int16 optionally followed by comma-separated options; the parsed id equals the decimal value, required is set iff the option required occurs; '-' ignores the field; tag parsing always terminates.", "quantifier": "all tag strings", "why_tests_cant": "Tag strings are unbounded.", "anchors": ["thrift/fields.go:parseFieldOptions,consumeTagOption"]}
{"id": "C18", "title": "ReadUvarint/ReadVarint agree with encoding/binary", "statement": "thriftwire.ReadUvarint and ReadVarint return the same value and error and consume the same bytes as binary.ReadUvarint/ReadVarint on every byte stream that ends.", "quantifier": "all byte streams and end-of-stream errors, all buffer sizes >= 16", "why_tests_cant": "All streams, including truncated and over-long varints.", "anchors": ["encoding/thriftwire/varint.go"]}
{"id": "C19", "title": "Varint and zigzag codecs are exact", "statement": "Every uint64 written as a uvarint and every int64 written as a zigzag varint reads back unchanged, consuming exactly what was written, in at most 10 bytes (3 for an int16, 5 for an int32); encodings of 11 bytes or exceeding 64 bits are rejected.", "quantifier": "all 64-bit values, all following bytes", "why_tests_cant": "2^64 values.", "anchors": ["encoding/thriftcompact/thriftcompact.go:writeUvarint,WriteI64,ReadI64", "encoding/thriftwire/varint.go"]}
{"id": "C20", "title": "Next returns exactly n bytes or a definite error", "statement": "thriftwire.Next(b, n) with 0 <= n <= b.Size() returns the next n bytes and advances by n; at end of input it returns what is left, advances past it, with io.EOF if nothing and io.ErrUnexpectedEOF if something but not all was read; negative n consumes nothing and is an error.", "quantifier": "all streams, n, buffer sizes", "why_tests_cant": "All combinations of n, stream length, buffer size.", "anchors": ["encoding/thriftwire/bufio.go:Next"]}
{"id": "C21", "title": "ReadString/ReadBytes of any length", "statement": "thriftwire.ReadString(b, n) and ReadBytes(b, n, buf) return exactly the next n bytes (appended to buf) for every n, also larger than the buffer; on short input they return the bytes available and io.ErrUnexpectedEOF (io.EOF if none); a negative n is an error that consumes nothing.", "quantifier": "all streams, n, buffer sizes, prefixes buf", "why_tests_cant": "Buffer boundary effects for all n.", "anchors": ["encoding/thriftwire/bufio.go:ReadString,ReadBytes"]}
{"id": "C22", "title": "Results do not depend on how the transport fragments data", "statement": "Every Reader method, Skip and Unmarshal return the same result on the same byte stream no matter how the underlying io.Reader splits it into Read results (including empty reads below bufio's limit and a final error delivered with or after the last data).", "quantifier": "all byte streams, all fragmentations, both protocols, all programs of Reader calls", "why_tests_cant": "Exponentially many fragmentations; network schedules are not controllable in tests.", "anchors": ["encoding/thriftwire/bufio.go", "encoding/thriftwire/varint.go", "encoding/thriftbinary/thriftbinary.go", "encoding/thriftcompact/thriftcompact.go"]}
{"id": "C23", "title": "A reader does not wait for bytes beyond the value", "statement": "When the complete encoding of a message or value has arrived, reading it does not issue a further blocking read on the transport (an RPC peer that sends one message and then waits for a reply is answered).", "quantifier": "all values, both protocols, an idle but open transport after the value", "why_tests_cant": "Tests read from byte buffers that report EOF instead of blocking, so a hang is invisible to them.", "anchors": ["encoding/thriftwire/varint.go:ReadUvarint", "encoding/thriftcompact/thriftcompact.go:ReadString,ReadMessageBegin"]}
{"id": "C24", "title": "Binary message headers", "statement": "WriteMessageBegin then ReadMessageBegin returns the same name, type and id for strict/strict, non-strict/non-strict and strict writer/non-strict reader; a strict reader rejects every header without the version-1 marker.", "quantifier": "all names shorter than 2^31 bytes, all message types and ids, all following bytes; for rejection all 4-byte starts", "why_tests_cant": "2^32 first words and unbounded names.", "anchors": ["encoding/thriftbinary/thriftbinary.go:ReadMessageBegin,WriteMessageBegin"]}
{"id": "C25", "title": "Compact message headers", "statement": "WriteMessageBegin then ReadMessageBegin returns the same name, id (every int32) and type (every type below 8); any other protocol id byte or version is rejected.", "quantifier": "all names, ids, types, following bytes", "why_tests_cant": "2^32 ids and unbounded names.", "anchors": ["encoding/thriftcompact/thriftcompact.go:ReadMessageBegin,WriteMessageBegin"]}
{"id": "C26", "title": "Compact field headers", "statement": "For every previous field id and every field id and type, the header appended by AppendFieldHeader decodes to the same id and type in at most MaxFieldHeaderSize bytes; one byte exactly when the (wrapping) delta is 1..15.", "quantifier": "all 2^16 x 2^16 id pairs, all types, both bool values", "why_tests_cant": "2^32 id pairs with wrap-around.", "anchors": ["encoding/thriftcompact/thriftcompact.go:AppendFieldHeader,ReadFieldBegin,MaxFieldHeaderSize"]}
{"id": "C27", "title": "Compact container headers", "statement": "AppendMapHeader/AppendSetHeader/AppendListHeader followed by ReadMapHeader/ReadSetHeader/ReadListHeader return the same size and element types for every non-negative size (empty maps lose their types), within MaxMapHeaderSize/MaxSetHeaderSize/MaxListHeaderSize bytes; invalid element types are an error and append nothing.", "quantifier": "all sizes, all types, all following bytes", "why_tests_cant": "2^63 sizes.", "anchors": ["encoding/thriftcompact/thriftcompact.go:AppendMapHeader,ReadMapHeader,AppendSetHeader,ReadSetHeader"]}
{"id": "C28", "title": "Compact struct nesting is balanced", "statement": "Field ids of an outer struct are unaffected by any nested struct, at any depth, both when writing and when reading; ReadStructEnd/WriteStructEnd without a matching Begin is an error, never a panic.", "quantifier": "all nestings, all call sequences", "why_tests_cant": "All call sequences.", "anchors": ["encoding/thriftcompact/thriftcompact.go:ReadStructBegin,ReadStructEnd,WriteStructBegin,WriteStructEnd"]}
{"id": "C29", "title": "Compact type codes are faithful", "statement": "Mapping a wire type to its compact code and back is the identity on the twelve valid types, every other wire type and every unknown compact code is rejected.", "quantifier": "all 256 wire types and all 256 compact codes", "why_tests_cant": "Finite, but the existing test covers only the valid ones; needed as a lemma for all compact properties.", "anchors": ["encoding/thriftcompact/types.go"]}
{"id": "C30", "title": "Byte-exact conformance to the Thrift protocol specifications", "statement": "The bytes written for any value are exactly those prescribed by an independent statement of the Thrift binary and compact protocol specifications.", "quantifier": "all wire values", "why_tests_cant": "Interoperability quantifies over all values.", "anchors": ["encoding/thriftbinary/thriftbinary.go:writer", "encoding/thriftcompact/thriftcompact.go:writer"]}
{"id": "C31", "title": "A failing transport never corrupts the written prefix", "statement": "Whatever the underlying io.Writer does (short writes, errors at any point), the bytes it has accepted are a prefix of the bytes the protocol prescribes; once it failed, every later flushed write reports an error and delivers nothing.", "quantifier": "all values, all failure schedules, all buffer fill levels", "why_tests_cant": "All crash points.", "anchors": ["encoding/thriftbinary/thriftbinary.go:writer", "encoding/thriftcompact/thriftcompact.go:appendWrite,ensureAvailable"]}
{"id": "C32", "title": "Flush delivers everything and flushes the transport", "statement": "If Flush returns nil then all bytes written so far have been accepted by the underlying writer, and the underlying writer's own Flush method (if any) has been called, also after Reset.", "quantifier": "all histories of writes, flushes and resets", "why_tests_cant": "All histories; existing tests never use a flushable transport.", "anchors": ["encoding/thriftbinary/thriftbinary.go:Flush,Reset", "encoding/thriftcompact/thriftcompact.go:Flush,Reset", "encoding/thriftwire/protocol.go:Flush"]}
{"id": "C33", "title": "Reset makes a reader or writer as good as new", "statement": "After Reset a reader/writer behaves exactly like a newly created one on the new stream, whatever happened before (including failed or half-finished values).", "quantifier": "all histories before Reset, all uses after", "why_tests_cant": "All histories.", "anchors": ["encoding/thriftbinary/thriftbinary.go:Reset", "encoding/thriftcompact/thriftcompact.go:Reset"]}
{"id": "C34", "title": "Memo replays what was written", "statement": "Unmarshal from a Memo's Reader, into a zero value of the same type, after Marshal into its Writer returns nil, reads back the original value (up to the normalisation and under the provisos of C01) and takes the very sequence of steps that was written. More generally, after any sequence of Writer calls the matching Reader calls return exactly what was written.", "quantifier": "all Go types and values", "why_tests_cant": "All values; tests use a dozen.", "anchors": ["internal/thriftmemo/memo.go", "internal/thriftmemo/zmemo.go"]}
{"id": "C35", "title": "Memo breakpoints cut at the exact step", "statement": "With Breakpoint b > 0 exactly b-1 steps succeed, on the Writer and on the Reader, before every further call fails with ErrBreak and changes nothing; b <= 0 never fails. Marshal and Unmarshal that take n steps return the same with b > n, and otherwise an error that wraps ErrBreak.", "quantifier": "all call sequences and breakpoints", "why_tests_cant": "All call sequences.", "anchors": ["internal/thriftmemo/memo.go:advance"]}
{"id": "C36", "title": "Arshaler construction terminates exactly when it should", "statement": "Looking up the (un)marshaler of a Go type terminates whenever every cycle of the type passes through a struct; for a type such as type T []T it does not terminate.", "quantifier": "all Go type graphs, including recursive ones", "why_tests_cant": "Recursive types are infinitely many; non-termination cannot be observed by a test.", "anchors": ["thrift/arshal.go:lookupArshaler", "thrift/arshal_default.go:makeDefaultArshaler"]}
{"id": "C37", "title": "Concurrent first use is safe", "statement": "Under any interleaving of goroutines, all lookups of one type return the same arshaler, built for that type, and a struct's field table is computed exactly once before anybody uses it.", "quantifier": "all numbers of goroutines, all interleavings", "why_tests_cant": "Schedules cannot be enumerated.", "anchors": ["thrift/arshal.go:lookupArshaler", "thrift/arshal_default.go:makeStructArshaler"]}
{"id": "C38", "title": "Marshal terminates", "statement": "Marshal terminates on every (finite) Go value, with every Writer whose methods return, unless a required field is a nil pointer to a type that again requires such a field without end; a value that involves such a field is never marshalled successfully, and with type T struct{X *T `thrift:\"1,required\"`} Marshal does not return.", "quantifier": "all types and values", "why_tests_cant": "Non-termination cannot be observed by a test.", "anchors": ["thrift/arshal_default.go:makePointerArshaler,makeStructArshaler"]}
{"id": "C39", "title": "Parse is total", "statement": "thriftfile.Parse terminates on every byte sequence without panicking and without leaking its internal panic.", "quantifier": "all byte sequences (also invalid UTF-8, NUL, BOMs)", "why_tests_cant": "All inputs.", "anchors": ["tools/thriftfile/parser.go", "tools/thriftfile/scanner.go"]}
{"id": "C40", "title": "Tokens tile the source", "statement": "Scanning yields tokens with strictly increasing, non-overlapping, non-empty, in-bounds source ranges, ending with exactly one EOF token; the text of a token is the source slice at its range; line table offsets are increasing.", "quantifier": "all byte sequences", "why_tests_cant": "All inputs.", "anchors": ["tools/thriftfile/scanner.go"]}
{"id": "C41", "title": "Parse accepts exactly the grammar", "statement": "Parse reports no error iff the token sequence belongs to the grammar (stated as an independent specification), and the returned tree is the one the grammar assigns.", "quantifier": "all token sequences, all syntax trees", "why_tests_cant": "Languages are infinite; both inclusion directions needed.", "anchors": ["tools/thriftfile/parser.go"]}
{"id": "C42", "title": "Errors are reported and sorted", "statement": "Parse returns a nil error iff no scan or parse error was recorded; otherwise the error list is a reordering of all recorded errors sorted by position and message.", "quantifier": "all inputs", "why_tests_cant": "All inputs.", "anchors": ["tools/thriftfile/parser.go:Parse,errors_"]}
{"id": "C43", "title": "Comments and layout do not matter", "statement": "Inserting white space and comments (each line comment with its newline) between the lexemes of a source does not change its lexemes, whether Parse reports errors, or the tree it returns; if the lexemes are well-formed but the syntax is not, the tree is the same up to the positions of the definitions that were given up, and the messages of the errors are the same. Behind a line comment the insertion has to begin with a newline, behind the operator / not with a slash. Limit (proved by a witness): among malformed lexemes a comment can change the tree.", "quantifier": "all sources, all insertions between lexemes", "why_tests_cant": "All inputs and insertions.", "anchors": ["tools/thriftfile/scanner.go", "tools/thriftfile/parser.go:next"]}
{"id": "C44", "title": "Errors in one definition do not hide the next", "statement": "Where Parse gives up a definition (BadDef from p to q), an error at p..q is in the list, and parsing goes on at the next word that begins a definition, or at the end. Well-formed definitions that begin there, up to the end or to a further word that begins a definition, are returned as they are and with no parser error among them; so are well-formed headers and definitions before any error. Limit (proved by a witness): a definition that begins where a token of the previous one is missing is lost.", "quantifier": "all inputs", "why_tests_cant": "All kinds and positions of errors.", "anchors": ["tools/thriftfile/parser.go:def", "tools/thriftfile/parser.go:resync"]}
{"id": "C45", "title": "Declared sizes do not drive allocation", "statement": "When decoding a string, list, set or map, the number of bytes/elements stored never exceeds what the input actually contained (plus one partially decoded element), however large the declared size.", "quantifier": "all inputs and declared sizes", "why_tests_cant": "Hostile sizes.", "anchors": ["encoding/thriftwire/bufio.go:ReadString", "thrift/arshal_default.go:makeSetListArshaler"]}
{"id": "C46", "title": "String methods are total and unambiguous", "statement": "Type.String, MessageType.String, compactType.String and token.String are defined for all 256 values and distinct values have distinct names.", "quantifier": "all byte values", "why_tests_cant": "Index arithmetic for all 256 values of each type.", "anchors": ["encoding/thriftwire/type_string.go", "encoding/thriftwire/messagetype_string.go", "encoding/thriftcompact/compacttype_string.go", "tools/thriftfile/token_string.go"]}
{"id": "C47", "title": "Back-to-back messages", "statement": "Any sequence of messages and values written to one writer is read back in order from one reader without loss, duplication or cross-talk of reader state.", "quantifier": "all sequences of values, both protocols", "why_tests_cant": "All sequences.", "anchors": ["encoding/thriftbinary/thriftbinary.go", "encoding/thriftcompact/thriftcompact.go"]}
{"id": "C48", "title": "Scalar codecs are bit-exact", "statement": "Every bool, byte, i16, i32, i64, double (all bit patterns incl. NaNs), string, binary and UUID written by a binary or compact writer is read back bit for bit.", "quantifier": "all scalar values, all following bytes", "why_tests_cant": "2^64 bit patterns and unbounded strings.", "anchors": ["encoding/thriftbinary/thriftbinary.go", "encoding/thriftcompact/thriftcompact.go"]}
{"id": "C49", "title": "No panic on hostile wire data", "statement": "Every Reader method of both protocols, Skip and Unmarshal return an error or a value, and never panic or index out of range, on any byte sequence in any reader state.", "quantifier": "all byte sequences, all call sequences, all target types", "why_tests_cant": "All inputs.", "anchors": ["encoding/thriftbinary/thriftbinary.go", "encoding/thriftcompact/thriftcompact.go", "thrift/arshal_default.go"]}
{"id": "C50", "title": "JoinProtocol joins", "statement": "A protocol made by JoinProtocol(r, w) reads exactly as r and writes exactly as w; reading non-strict what was written strict works.", "quantifier": "all protocols, values", "why_tests_cant": "All protocol pairs and values.", "anchors": ["encoding/thriftwire/protocol.go:JoinProtocol"]}
{"id": "C51", "title": "The outcome of Unmarshal is determined by the wire value", "statement": "On a reader holding a complete well-formed value, Unmarshal into a pointer to a supported type always returns: nil with the target holding exactly the decoding of the wire value over the old contents, if every wire type inside matches the Go type it lands in, and a non-nil error otherwise.", "quantifier": "all wire values, all Go types whose lookup terminates, all target contents, all Readers holding the value", "why_tests_cant": "The space of (wire value, Go type, old contents) triples is infinite; nested mismatch inside maps of lists of structs is only sampled.", "anchors": ["thrift/arshal_default.go", "thrift/arshal.go:Unmarshal"]}
{"id": "C52", "title": "Readers are called by the grammar", "statement": "Skip and Unmarshal call the Reader exactly as the headers it returned announce: a value of the announced type is read by the method for that type, ReadFieldEnd follows each field value, ReadMapEnd follows exactly Size keys and Size values, no method is called after the value is complete, and no value method of a type not announced is ever called.", "quantifier": "all Readers, whatever they answer (also inconsistent ones), all target types and values", "why_tests_cant": "Call sequences are unbounded, and depend on adversarial answers.", "anchors": ["thrift/arshal_default.go", "encoding/thriftwire/skip.go:Skip"]}
{"id": "C53", "title": "Unmarshal does work linear in the input", "statement": "However large the sizes declared in the input, Unmarshal into any target returns after a number of Reader calls linear in the number of bytes present.", "quantifier": "all byte sequences, all target types whose lookup terminates, all target contents, both protocols", "why_tests_cant": "Hostile inputs and nested target types are unbounded; a fuzzer sees only time-outs.", "anchors": ["thrift/arshal_default.go", "thrift/arshal.go:Unmarshal"]}
{"id": "C54", "title": "Marshal accepts exactly the values that stand for a wire value", "statement": "With a Writer that does not fail, Marshal returns nil for a Go value if and only if the value stands for some wire value (all its types supported, its struct tags valid, its required nil pointers finitely deep); it then makes the calls for one such wire value, and succeeds on every Writer that takes these calls.", "quantifier": "all Go types whose lookup terminates, all values of them, all Writers", "why_tests_cant": "Quantifies over all types and values, in both directions.", "anchors": ["thrift/arshal.go:Marshal", "thrift/arshal_default.go", "thrift/fields.go"]}
{"id": "C55", "title": "Error texts are stable and informative", "statement": "The text of every SemanticError and of every error naming a failed Reader or Writer method begins with 'thrift: '; the text of an error that wraps another ends with that one's text, down the whole Unwrap chain; the deliberate randomisation only switches between two phrases in a fixed place; and for a given Go type the text tells the action and the Thrift type.", "quantifier": "all errors and chains of errors, all outcomes of the randomisation, all names of Go types", "why_tests_cant": "The randomisation makes test comparisons unreliable; chains and type names are unbounded.", "anchors": ["thrift/errors.go:Error,Unwrap"]}
{"id": "C56", "title": "The scanner implements the lexical grammar", "statement": "The scanner of .thrift files reports no error iff every character of the source is allowed (valid UTF-8, no NUL, no byte order mark except one at the beginning) and the source is a sequence of white space and longest-match lexemes of the lexical grammar (identifiers, reserved words, integers, floats, strings, operators, comments); then the tokens other than comments are exactly those lexemes with their texts. A source has at most one such reading. Characters are those that UTF-8 encodes; a byte at which no encoded character begins (as in encodings of surrogates, overlong and cut off ones) is not allowed. The table of keywords holds exactly the reserved words.", "quantifier": "all byte sequences; all Unicode tables that agree with ASCII below 0x80", "why_tests_cant": "The language is infinite; both directions are needed, and longest match quantifies over all prefixes.", "anchors": ["tools/thriftfile/scanner.go", "tools/thriftfile/tokens.go"]}
{"id": "C57", "title": "Errors have the right line and column", "statement": "Every error that the scanner or Parse reports has an offset inside the source, and its line and column are those of that offset: the number of lines that begin at or before it, and the distance to the beginning of the last of them plus one.", "quantifier": "all byte sequences", "why_tests_cant": "All inputs, in particular all mixtures of errors and newlines, where the line table is still being built when an error is reported.", "anchors": ["tools/thriftfile/scanner.go:nextch,error", "tools/thriftfile/parser.go:error"]}
{"id": "C58", "title": "Messages sent through any working transport are received", "statement": "Messages are sent one after the other, each with WriteMessageBegin, Marshal and WriteMessageEnd, through one writer with a buffer of any size on any transport that honours the contract of io.Writer. If all calls and the final Flush return nil, then a reader on any transport that delivers the accepted bytes, in any pieces and followed by anything, receives with ReadMessageBegin, Unmarshal into zero values and ReadMessageEnd the same headers and the same values (up to what the round trip of a value changes) without error, and has then consumed exactly those bytes.", "quantifier": "all sequences of messages and values, all writer and reader transports and buffer sizes, all fragmentations, both protocols", "why_tests_cant": "It composes buffering on both sides, the encodings and reflection; all fragmentations and all partial failures of the transports cannot be enumerated.", "anchors": ["thrift/arshal.go:Marshal,Unmarshal", "encoding/thriftbinary/thriftbinary.go", "encoding/thriftcompact/thriftcompact.go", "encoding/thriftwire/bufio.go"]}
{"id": "C59", "title": "A value that has been through Marshal and Unmarshal once is not changed by going through them again", "statement": "Marshal a value and Unmarshal the bytes into a zero value of the type. Whatever order the entries of its maps come in, the value obtained can be marshalled; unmarshalling the new bytes gives the same value again (spare slice capacity aside); and marshalling that, with the map entries in the same order, gives the same bytes again. So re-encoding stored or forwarded messages settles after one step. The first bytes may be others: an optional empty slice that is not nil is written, comes back nil, and is then left out.", "quantifier": "for all types with distinct field ids whose zero values are exactly those reported zero, all values that Marshal accepts whose map keys stay different, both protocols, all buffer sizes and bytes following, all orders of map entries", "why_tests_cant": "Needs idempotence of the whole round trip for all types and values at once; tests compare single values after one trip, and the exceptions (empty but non-nil slices, negative zero where reflect takes it for zero) are outside usual samples.", "anchors": ["thrift/arshal_default.go:281-322", "thrift/arshal_default.go:323-361", "thrift/fields.go:57-73"]}
{"id": "C60", "title": "Types may change between writing and reading", "statement": "What Marshal writes for a value of one type, Unmarshal reads into a zero value of any compatible type: it returns nil, reads exactly the bytes written, and the result holds what was written: a field takes the value of the written field with the same id, and is zero if there is none or it was not written; fields that only the writer has are skipped. Two types are compatible if, going down through both, they are equal up to pointers, signedness, float width, strings and byte slices, field names and order, and fields that only one of them has; map keys must have the same type. The types may be recursive.", "quantifier": "for all pairs of compatible types with distinct field ids (recursive ones included), all values that Marshal accepts whose map keys stay different, both protocols, all buffer sizes and bytes following", "why_tests_cant": "Schema evolution is a statement about all pairs of schema versions at all depths, and all values; tests have single pairs of structs.", "anchors": ["thrift/arshal_default.go:281-361", "thrift/arshal_default.go:590-623", "encoding/thriftwire/skip.go", "thrift/fields.go:57-73"]}
{"id": "C61", "title": "The error of Parse says where the first error is and how many there are", "statement": "The error that Parse returns is nil exactly if the source is a file of the grammar. Otherwise its text is the file name (if it has one), the line and the column in decimal, and the message of one of the errors, separated by colons, followed by \"(and N more errors)\" if there are N > 0 others. That error is the first: no other error is before it in the source. The text and the file name determine the line and the column. The message tells which of ten kinds of error it is (NUL, not UTF-8, byte order mark, character that begins no token, number followed by a letter, newline in a string, string or comment without end, unknown escape, something else expected): messages of different kinds have different texts.", "quantifier": "for all sources, valid or not, and all file names", "why_tests_cant": "The tests compare error positions for a handful of broken files; that the summary names the first position and the right count on every input needs the order of the errors, their line table and the printing of numbers together.", "anchors": ["tools/thriftfile/parser.go:10-19", "tools/thriftfile/parser.go:26-28", "tools/thriftfile/parser.go:36-41", "tools/thriftfile/parser.go:68-76"]}
{"id": "C62", "title": "What the readers accept, exactly", "statement": "For every input, Skip(r, t) on a reader of either protocol returns nil exactly if the next bytes stand for a value of type t, and then it has consumed exactly these bytes; otherwise, if the input ends, it returns an error. Unmarshal returns nil exactly if the next bytes stand for a value of the wire type of the Go type that has no value of the wrong wire type where a declared field, element, key or map value is expected; the variable then holds what this value decodes to. ReadMessageBegin accepts exactly the headers of its protocol. Which bytes stand for a value is said without reference to the code: binary as in the specification, except that any byte but 0 is a true bool, a negative size is an empty container, and the key and value types of an empty map are not looked at; compact as in the specification, except that varints may be padded (up to 10 bytes), integers are cut to their width, sizes of 2^63 and more are empty containers, field headers and list headers may use the long form needlessly, and the upper half of a stop byte is not looked at. No byte sequence for a value of a type is a proper prefix of another one.", "quantifier": "for all inputs, valid or not, all types, buffer sizes, reader states not in the middle of a bool field, and Go types that Unmarshal supports", "why_tests_cant": "Tests feed well-formed encodings and a few broken ones. What else a reader accepts, and how it understands it, can only be seen by an exact description of the accepted language.", "anchors": ["encoding/thriftbinary/thriftbinary.go:70-251", "encoding/thriftcompact/thriftcompact.go:62-303", "encoding/thriftwire/skip.go:Skip", "encoding/thriftwire/bufio.go", "thrift/arshal_default.go"]}
{"id": "C63", "title": "The errors of the parser are to the point", "statement": "Every error of thriftfile.Parse is one of the scanner, or stands at the beginning of a token (or at the end of the source) and its text is \"expected X, found Y\", where Y is the text of that token if it is a name, a number or a string, and else the token in quotes ('EOF' at the end). If the scanner reports nothing, an error with the smallest offset is at the first token at which the source stops being the beginning of a .thrift file: no source with the same tokens up to and including that one is accepted, whatever follows. And what the error says is expected is right: what is before the offset, followed by X (for 'definition', 'type' and 'value' any token that one can begin with), can be continued to a source that Parse accepts. If the error is at the end of the source, the whole source can be continued in this way.", "quantifier": "all byte sequences; all Unicode tables that agree with ASCII below 0x80 (for the second part)", "why_tests_cant": "Tests compare messages for a few wrong files. That the first error is never too early, never too late, and that its advice can be followed is a statement about all continuations of all sources.", "anchors": ["tools/thriftfile/parser.go:94-142", "tools/thriftfile/parser.go:Parse", "tools/thriftfile/tokens.go:90-92"]}
{"id": "C64", "title": "Unmarshal writes to nothing but what its argument leads to", "statement": "Unmarshal(r, p) changes no memory but what p leads to by following pointers, slices (up to their capacity) and maps, and memory that it has itself allocated. After it has returned, with or without an error, p leads only to what it led to before and to new memory. This holds whatever is shared in the value p points to, and even if it refers to itself.", "quantifier": "all Readers and their answers, all types, all memories (with any sharing and cycles), all contents that a failed read may leave behind", "why_tests_cant": "Tests look at the value that was read, not at the rest of memory; a slice header that reaches one element too far, or a buffer that is kept, is seen only when something else happens to be there.", "anchors": ["thrift/arshal.go:47-63", "thrift/arshal_default.go:205-220", "thrift/arshal_default.go:321-370", "thrift/arshal_default.go:438-476", "thrift/arshal_default.go:521-565", "thrift/arshal_default.go:609-615"]}
{"id": "C65", "title": "Without sharing, Unmarshal in memory is Unmarshal on trees", "statement": "Let the variable that p points to hold a tree: no two pointers, slices or maps in it share memory. Then Unmarshal(r, p) makes the same calls of the Reader and returns the same error as on the tree as a plain value (which is what the other properties speak about), and afterwards the variable holds again a tree: exactly the resulting value if the error is nil; otherwise the same up to the content of at most one byte slice or UUID, the one at which the read failed. Its memory is some of the old tree's and new memory, and all other memory is unchanged. Without the hypothesis this is false: if two byte slices share an array, what is read into the first is overwritten by the second.", "quantifier": "all Readers and their answers, all types, all memories that hold a tree, all contents that a failed read may leave behind, all capacities of new slices", "why_tests_cant": "Reuse of arrays (append to b[:0], SetLen up to the capacity), of the variables k and v for all entries of a map, and of existing pointers is where values can come to share memory by mistake. A test that compares values does not see that two parts share memory.", "anchors": ["thrift/arshal.go:47-63", "thrift/arshal_default.go:205-256", "thrift/arshal_default.go:321-370", "thrift/arshal_default.go:438-476", "thrift/arshal_default.go:521-565", "thrift/arshal_default.go:609-615"]}
{"id": "C66", "title": "Marshal sees values, not sharing", "statement": "Marshal writes what it would write for the value as a tree, whatever parts of the value share memory: two arguments that are the same value are marshalled alike, call for call, with the same error. It does not notice cycles: for an argument that leads back to itself through pointers, elements, map entries and fields that are to be written, Marshal never succeeds, with any Writer; and Marshal of a struct that points to itself does not return at all, with a Writer that never fails.", "quantifier": "all Writers, all types, all memories in which the argument has a (finite) value, with IsZero methods that answer by value; for cycles all memories and IsZero methods", "why_tests_cant": "Whether some cache or visited-set makes the output depend on identity of pointers cannot be found by a finite number of inputs; that Marshal does not return cannot be tested at all.", "anchors": ["thrift/arshal.go:18-38", "thrift/arshal_default.go:68-320", "thrift/arshal_default.go:403-437", "thrift/arshal_default.go:495-520", "thrift/arshal_default.go:601-608", "thrift/fields.go:57-73"]}
{"id": "C67", "title": "Marshal and Unmarshal make a deep copy", "statement": "If Marshal of the value of a variable has succeeded, then Unmarshal of what was written into another variable, which is zero, makes that variable hold the same value (in the sense of C01 and C02) as a tree of which all memory is new: it shares nothing with the original, with anything else there was before, or among its parts, even if parts of the original were shared. Nothing there was before is changed, but for the variable read into.", "quantifier": "all types and values as in C01 and C02, all memories, both protocols, any bytes following", "why_tests_cant": "Comparing the copy with the original does not show what they share; a buffer that is not copied would be noticed only when it is reused later.", "anchors": ["thrift/arshal.go:18-63", "thrift/arshal_default.go", "encoding/thriftbinary/thriftbinary.go", "encoding/thriftcompact/thriftcompact.go"]}
{"id": "C68", "title": "Errors of Marshal and Unmarshal name what is at fault", "statement": "If Unmarshal returns an error, exactly one explanation is given, and it is right. If the argument is nil, a nil pointer or no pointer, the error says so and names the Go type the argument should point to (or its type). Otherwise the error either comes from the last call of the Reader, which failed, or no call failed. If a call failed, the error names the method that was called, the Thrift type that this method reads, and a Go type that is part of the type of the variable and maps to this Thrift type, and wraps the error of the call; while an unknown field is skipped it is the error of the call itself. If no call failed, the error names a Go type that is part of the type of the variable, and: the wire type that was found, which is not the one that the Go type maps to; or the wire type that was found, the Go type being of a kind that is not supported; or that the fields of this struct type are not declared properly; or, for an unknown field, the wire type, which does not exist. The wire type named then is that of the value to come next according to the headers read so far. Likewise for Marshal: argument nil; a failed call of the Writer, with its method, Thrift type and a Go type that maps to it; or a Go type that is part of the type of the value and cannot be handled (itself, as set or list of such, as map with such keys or values, or because of its fields).", "quantifier": "all Readers and Writers and their answers, all types, all values", "why_tests_cant": "Each of the ~60 places where an error is made has its own literal method name, Thrift type and Go type, copied from its neighbours. Tests check that there is an error, not what is in it.", "anchors": ["thrift/arshal.go:18-38", "thrift/arshal.go:47-63", "thrift/arshal_default.go", "thrift/fields.go", "thrift/errors.go:10-45", "encoding/thriftwire/skip.go"]}
{"id": "C69", "title": "What Unmarshal leaves behind when it stops half way", "statement": "If Unmarshal into a variable returns an error, with any Reader, the variable holds exactly what the successful calls up to then have brought: fields and map entries that were read completely are decoded as for a successful Unmarshal; struct fields that were not reached, and scalars whose call failed, keep their old value; a nil pointer that was to be filled points to a new variable; a slice has the elements that were read and then one that holds what was read of the next; a map has the entries that were read, and if a value was begun, its key with what was read of the value, but nothing for a key that was not complete. At most one call failed, and it was the last. The error is a SemanticError unless reading stopped inside a field that is not declared. If Unmarshal returns nil, the calls have read one wire value of the right type, and the variable holds what it decodes to. In either case a field of a struct keeps its value if no field header with its id was read.", "quantifier": "all Readers and their answers, all types, all old values, errors at any call", "why_tests_cant": "The number of places where an error can occur grows with the input, and the state of the variable is different for each; tests look at the variable only after success.", "anchors": ["thrift/arshal.go:47-63", "thrift/arshal_default.go", "encoding/thriftwire/skip.go"]}
{"id": "C70", "title": "A reader goes on when its source grows", "statement": "A binary or compact reader does not keep an error of its source. Take a reader of a source that never returns bytes and an error in the same call (as bytes.Buffer and net.Conn). Make any calls on the reader, also such that fail at the end of the source, append bytes to the source, make more calls, Reset it, and so on in any order. At any time the reader gives all further calls the same answers, and leaves the same bytes, as a new reader (with the same record of field ids, for compact) of a source that holds the bytes not consumed so far. With a source that returns its last bytes together with io.EOF this is not so: the reader reports io.EOF once more after bytes have been appended.", "quantifier": "all sequences of Reader calls, appends and Resets; all ways the source cuts its bytes; all buffer sizes from 16 (binary)", "why_tests_cant": "Whether an error stays behind in the buffer depends on the call at which the source ended and on how many bytes were buffered; tests use few such points.", "anchors": ["encoding/thriftbinary/thriftbinary.go:61-250", "encoding/thriftcompact/thriftcompact.go:34-295", "encoding/thriftwire/bufio.go", "encoding/thriftwire/varint.go"]}
{"id": "C71", "title": "The conformance test TestProtocol passes", "statement": "thrifttest.TestProtocol, called with the binary protocol (strict or not) or the compact protocol, passes, with and without the UUID option: for its own table, and for any table of struct values that come back from Marshal and Unmarshal as they were and whose maps have at most one entry unless marked hasMap. It passes in whatever order each Marshal comes across the entries of maps, however Go leaves open what reflect.Value.Grow and sort.Slice do. In each subtest: the message that is written is read back with its header, and with nothing left in the buffer; marshalling the result three times gives the same bytes; three copies of the message, appended one at a time to a buffer from which the reader may have read ahead, are skipped.", "quantifier": "all tables of such values, of any length; all iteration orders of maps at each Marshal; strict and not; all Go programs that contain the types of the table", "why_tests_cant": "A run of the test covers one order of map iteration and one table; that it passes for all of them, and from every state the earlier subtests leave behind, is not shown by running it.", "anchors": ["testing/thrifttest/protocol.go:13-240", "encoding/thriftbinary/thriftbinary.go", "encoding/thriftcompact/thriftcompact.go", "thrift/arshal.go", "thrift/arshal_default.go", "encoding/thriftwire/skip.go"]}
{"id": "C72", "title": "Parse returns exactly the trees that can be written down", "statement": "A syntax tree is what Parse returns for some source, without an error, if and only if: no definition in it is a BadDef; all names are identifiers (not reserved words), except that the name of a field may be a reserved word; ids, enum values and int literals are integer literals, floats are float literals, include paths, annotation values and string literals are string literals with their quotes; no field is both required and optional, no struct is both a union and an exception, and a method is void iff it has no return type. So every such tree can be written down (there is a source for it), and a caller who gets no error can rely on all of these.", "quantifier": "all syntax trees, of any size and depth; all sources; all tables of letters and digits that agree with ASCII", "why_tests_cant": "Tests parse some files and look at some trees. That no tree outside this set ever comes back, and that none inside it is out of reach of the language, are statements about all sources and all trees.", "anchors": ["tools/thriftfile/parser.go:10-526", "tools/thriftfile/nodes.go:18-275", "tools/thriftfile/scanner.go"]}
{"id": "C73", "title": "Skip recurses as deep as the value is nested, and no deeper than the input is long", "statement": "On a stack with room for d frames of Skip, skipping a value that is nested n deep succeeds iff n <= d, and overflows the stack (a fatal error in Go) otherwise; this holds for every Reader. On arbitrary bytes, n bytes never need more than n+1 frames, in both protocols. There is no limit on nesting: for every d there is a well-formed value of 5(d+1) bytes in the binary protocol, and of d+1 bytes in the compact protocol, that Skip returns nil for on a large enough stack and that overflows a stack of d frames.", "quantifier": "all Readers and values; all byte strings and types; all stack sizes; all reader states", "why_tests_cant": "How deep the recursion gets depends on the input, which a sender chooses; a test shows one depth. That the need is exactly the depth of the value and bounded by the length of the input, and that nothing in the code bounds it further, quantifies over all inputs.", "anchors": ["encoding/thriftwire/skip.go:4-82", "encoding/thriftbinary/thriftbinary.go", "encoding/thriftcompact/thriftcompact.go"]}
{"id": "C74", "title": "What is read from the buffer is read before the buffer is overwritten", "statement": "With the bufio.Reader as it is, an array with two indices that fill moves bytes within and that the transport reads into: every program of Reader calls, in both protocols, gives the same answers and leaves the same bytes unread as on a stream that has all its bytes at once; whatever is in the array before (a reused reader), in whatever pieces the bytes arrive, and whatever the transport leaves in the parts of the array it was lent but did not fill. In any session of Next, ReadString, ReadBytes, ReadUvarint and ReadVarint on one bufio.Reader, every string, byte slice and number is, when the session is over, still what the call had delivered; only the slice returned by Next points into the array, and it is valid until the next call. It is not valid longer: there is a session in which the slice of a first Next holds other bytes after a second one.", "quantifier": "all programs of Reader calls, all sessions; all array contents and sizes, all byte streams, chunkings and scribbles of the transport; all reader states", "why_tests_cant": "A slice of the buffer that is used too late shows only if a later read happens to move or refill the array; whether it does depends on sizes and on how bytes arrive. Tests use readers that deliver everything at once, in a buffer of 4096 bytes.", "anchors": ["encoding/thriftwire/bufio.go", "encoding/thriftwire/varint.go", "encoding/thriftbinary/thriftbinary.go:62-249", "encoding/thriftcompact/thriftcompact.go:35-290"]}
{"id": "C75", "title": "What is written does not depend on the memory it passes through", "statement": "With the bufio.Writer as it is, an array of which the first n bytes are buffered, numbers put into a scratch array of the protocol writer and written from there, and headers of the compact protocol appended to AvailableBuffer(), the free part of the array of the bufio.Writer itself, and then passed to its Write: any sequence of calls, Flush included, is answered as by a writer that is given the bytes, and leaves the transport in the same state, the same bytes sent and held, and the same error kept. So nothing panics for lack of room in the scratch array, what the transport has accepted is a prefix of what the protocol prescribes, and without a failure nothing is missing; whatever was in the two arrays before, and whatever the size of the buffer.", "quantifier": "all sequences of calls; all honest transports and failures; all contents of the two arrays, all buffer sizes but 0; all fields of the compact writer", "why_tests_cant": "Appending to memory inside the buffer and then writing it to the same buffer works only as long as nothing is flushed or moved in between, or the bytes are copied onto themselves; tests write into 4096 bytes and do not see the moment when the header just does not fit.", "anchors": ["encoding/thriftbinary/thriftbinary.go:252-417", "encoding/thriftcompact/thriftcompact.go:293-570"]}
{"id": "C76", "title": "Any io.Reader will do", "statement": "A binary or compact reader on any io.Reader that keeps the contract of that interface gives the answers it gives on the plain stream of the bytes of that io.Reader, and leaves in its buffer and in the io.Reader exactly the bytes it leaves of that stream. How many bytes a Read delivers may depend on anything: the bytes, the room, what happened before; the Read may be that of a bufio.Reader of the caller's with a buffer of any size, on anything that keeps the contract, and so on.", "quantifier": "all io.Readers with a state of any type that deliver what they have in order, return an error only at the end, and return (0, nil) at most 99 times in a row; all programs of Reader calls; all buffer sizes", "why_tests_cant": "Tests read from bytes.Buffer and bytes.Reader, which deliver all that is asked for. The contract allows much else.", "anchors": ["encoding/thriftbinary/thriftbinary.go:61-250", "encoding/thriftcompact/thriftcompact.go:34-295", "encoding/thriftwire/bufio.go", "encoding/thriftwire/varint.go"]}
{"id": "C77", "title": "Protocol readers share a bufio.Reader with the caller", "statement": "A program may work with many transports at once, with bufio.Readers of its own (of at least 4096 bytes), with protocol readers made from transports and reset to other transports at any time, and with any number of protocol readers, of both protocols, made from its own bufio.Readers, from which it also reads itself. It sees plain streams, one for each transport: every call of whichever reader takes from its stream what it returns and nothing else, and what it leaves is there for the next reader of that stream. So any sequence of Go values, each marshalled with one of the protocols, mixed with plain bytes, is read back from one transport, and what follows is left. This needs the 4096 bytes: with a smaller bufio.Reader a protocol reader takes all that is there. Also, a protocol reader made from the caller's bufio.Reader must not be reset to another transport: that resets the caller's bufio.Reader too, and its unread bytes are lost.", "quantifier": "all programs over all such calls in any order; all io.Readers as in C76; all sequences of values and bytes", "why_tests_cant": "Whether a reader reads ahead shows only when someone else goes on reading, and then depends on sizes. No test shares a bufio.Reader.", "anchors": ["encoding/thriftbinary/thriftbinary.go:61-68", "encoding/thriftbinary/thriftbinary.go:252-262", "encoding/thriftcompact/thriftcompact.go:26-32", "encoding/thriftcompact/thriftcompact.go:289-295"]}
{"id": "C78", "title": "Protocol writers share a bufio.Writer with the caller", "statement": "A caller has a bufio.Writer of at least 4096 bytes on some transport, makes protocol writers of both protocols from it, uses, flushes and resets them to it in any order, and writes to it and flushes it itself. Everything arrives in the order in which it was written: what the transport has accepted is a prefix of it, and all of it once a Flush of whichever writer has returned nil. The answers are those of writers that cannot fail until the transport fails; from then on nothing more is delivered, every Flush reports the failure, and every call that has something to write is refused. So any sequence of Go values and plain bytes written this way and flushed arrives as C77 needs it to be read back. With a bufio.Writer of any smaller size, which the protocol writer wraps in one of its own, what the transport has accepted is still a prefix, and Flush goes through both buffers to the transport; but then the order of writes by different writers is not kept between flushes.", "quantifier": "all sequences of such actions; all honest transports and failures; all buffer sizes; all sequences of values and bytes", "why_tests_cant": "Whether bytes overtake each other depends on the sizes of buffers and of what is written. No test shares a bufio.Writer or lets a transport fail.", "anchors": ["encoding/thriftbinary/thriftbinary.go:252-262", "encoding/thriftbinary/thriftbinary.go:395-405", "encoding/thriftcompact/thriftcompact.go:30-32", "encoding/thriftcompact/thriftcompact.go:526-539", "encoding/thriftwire/protocol.go:100-114"]}
{"id": "C79", "title": "TestArshaler for every type and value: a break at any step is reported by Marshal and Unmarshal", "statement": "Let Marshal of a value to a fresh Memo succeed and record the steps S. With Breakpoint n+1, for any n < len(S), Marshal to a fresh Memo returns a SemanticError with action marshal that wraps a wireError that names the method that made step n (Write followed by S[n], or WriteStructEnd, which makes the last FieldBegin of a struct and its StructEnd) and wraps ErrBreak; the Memo has recorded S[:n]. Unmarshal from that Memo into any variable of the type returns a SemanticError with action unmarshal that wraps a wireError named Read followed by S[n], which wraps ErrBreak; it has read exactly the steps S[:n], and leaves a value of the type in the variable. Without a breakpoint Unmarshal into any variable of the type succeeds and reads exactly the steps S. Hence the test TestArshaler, with a table of any values whatever, passes exactly if each row lists the steps in which Marshal writes the value; its own table does. For any two functions in the place of Marshal and Unmarshal, right or wrong: if the test passes, they have behaved like this at every step of every row, as far as the test looks (any name Write followed by the step, or WriteStructEnd, is accepted).", "quantifier": "all Go types with valid tags and distinct ids, all values of them, all steps of the value, all former contents of the variable, all tables", "why_tests_cant": "TestArshaler tries twenty values. It uses one variable for all breakpoints of a row, of which only the last steps are checked, and accepts WriteStructEnd as the name of every failed call.", "anchors": ["thrift/arshal_test.go:26-184", "internal/thriftmemo/memo.go:16-95", "thrift/arshal.go:19-96", "thrift/errors.go:12-41"]}
{"id": "C80", "title": "Skip at a Memo", "statement": "Let a Memo, in any state and with any breakpoint, be such that its Reader would give back all calls that write some value. If WriteBytes is not among these calls, Skip of the value's type returns nil and leaves the Memo exactly as reading the value does; if it is, Skip panics. So after a value has been written to a fresh Memo without WriteBytes, Skip makes exactly the steps that were written. If the Memo breaks after n of the value's steps, Skip returns ErrBreak itself, after exactly these n steps.", "quantifier": "all wire values, all states of the Memo, all breakpoints", "why_tests_cant": "TestSkip skips twelve values and does not look at the steps: the steps column of its table is not used. It has no bytes and no breakpoints.", "anchors": ["encoding/thriftwire/skip.go:4-82", "encoding/thriftwire/skip_test.go:19-137", "internal/thriftmemo/memo.go:53-95", "internal/thriftmemo/zmemo.go:11-199"]}
{"id": "C81", "title": "How deep Unmarshal recurses", "statement": "Count the frames of the arshalers and of Skip on the Go stack. At any Reader, Unmarshal on a limited stack either overflows it or does what it does on an unlimited one. In front of a value that Unmarshal accepts, with fewer frames than the value is deep it overflows, and with (m + 1) times as many as the value is deep it does not, where m is the longest run of pointers in the Go type (so without pointers the depth of the value is exact). At any bytes whatsoever in binary or compact format, (m + 1) (n + 1) frames are enough for n bytes. But there is no other limit: whatever the stack, any struct that Unmarshal accepts can be made to overflow it by an undeclared field of 5 d + 8 bytes in front (binary) or at most d + 8 bytes more (compact), which on an unlimited stack change nothing.", "quantifier": "all Go types, values, arguments, bytes, stack sizes; for the first two, all Readers", "why_tests_cant": "A test has one stack and messages of some depth; the relation between the bytes and the depth of the stack is a claim on all of them. None of the tests has nested input deeper than a few levels.", "anchors": ["thrift/arshal.go:47-63", "thrift/arshal_default.go:68-256", "thrift/arshal_default.go:321-370", "thrift/arshal_default.go:438-476", "thrift/arshal_default.go:521-565", "thrift/arshal_default.go:609-615", "encoding/thriftwire/skip.go:4-82"]}
{"id": "C82", "title": "Marshal and Unmarshal take the same number of frames", "statement": "Count the frames of the arshalers and of Skip on the Go stack. At any Writer, Marshal on a limited stack either overflows it or does what it does on an unlimited one; when Marshal succeeds it takes one frame for each level of what is written of the Go value and one for each pointer on the way (a nil pointer counts as one to the zero value). Unmarshal in front of a value takes one frame for each level and one for each pointer of the Go type on the way. So the numbers are the same: when Marshal succeeds, in binary or compact format, there is a number n such that with n frames or more it does the same and with fewer it overflows; and Unmarshal of the bytes into any variable of the same type, if it succeeds, succeeds in the same way with n frames or more and overflows with fewer.", "quantifier": "all Go types with distinct field ids, values, previous contents of the variable, stack sizes; for the first parts, all Writers and Readers", "why_tests_cant": "A test has one stack. That what could be written on a stack can be read back on a stack of the same size, and not on a smaller one, is a claim on all values and all sizes.", "anchors": ["thrift/arshal.go:18-63", "thrift/arshal_default.go:68-256", "thrift/arshal_default.go:269-370", "thrift/arshal_default.go:403-476", "thrift/arshal_default.go:495-565", "thrift/arshal_default.go:601-615", "encoding/thriftwire/skip.go:4-82"]}
{"id": "C83", "title": "How deep Parse recurses", "statement": "Count the frames of type_ and value, the two recursive functions of the parser, on the Go stack. Parse on a limited stack either overflows it (which no recover stops) or returns what it returns on an unlimited one. When Parse makes sense of all definitions, in particular when it reports no error, it takes exactly as many frames as the deepest type or value of the file has levels: with so many or more it returns the same, with fewer it overflows. As many frames as the source has bytes and one more are enough for any source. No fixed number is enough: for every number of frames there is a source without errors, of four bytes for each frame and 18 more, on which Parse overflows the stack.", "quantifier": "all sources, all tables of letters and digits beyond ASCII, all stack sizes", "why_tests_cant": "A test has one stack and sources of small depth. That the depth of the tree, and nothing else of the source, decides on the stack is a claim on all sources and sizes.", "anchors": ["tools/thriftfile/parser.go:10-19", "tools/thriftfile/parser.go:188-197", "tools/thriftfile/parser.go:230-283", "tools/thriftfile/parser.go:312-401", "tools/thriftfile/parser.go:403-500"]}
{"id": "C84", "title": "Separators, and what a tree tells of its source", "statement": "Parse of two sources without errors returns the same tree if and only if the tokens of the sources, with their texts, are the same except for commas and semicolons. So separators never change a tree that is accepted, wherever they stand, and nothing else but comments, white space and separators is lost in it: two sources of the same tree differ only in these. Semicolons are never needed: a source with the tokens of a source without errors, but without its semicolons, has no error and the same tree.", "quantifier": "all pairs of sources, all tables of letters and digits beyond ASCII", "why_tests_cant": "A test parses some sources with some separators. That no two accepted sources with other tokens share a tree, and that none with the same tokens have two, is a claim on all pairs of sources.", "anchors": ["tools/thriftfile/parser.go:10-19", "tools/thriftfile/parser.go:144-151", "tools/thriftfile/parser.go:188-526"]}
{"id": "C85", "title": "How long the two encodings of the same value are", "statement": "A value that Marshal writes in the binary protocol it also writes in the compact protocol, with at most one and a half times as many bytes and at least an eighth as many. Neither bound can be improved by more than a constant: slices of int16 come as close to the first, slices of int64 as close to the second as one likes. A message header is no longer in the compact than in the strict binary encoding exactly if its sequence id is not negative, and never by more than five bytes.", "quantifier": "all Go types and values with lengths below 2^31, all message headers", "why_tests_cant": "Tests compare the bytes of some values. A bound for all values, which a buffer could be sized by, follows only by induction over values; the worst cases are not those a test author would write down.", "anchors": ["encoding/thriftbinary/thriftbinary.go:260-410", "encoding/thriftcompact/thriftcompact.go:300-540", "thrift/arshal.go:Marshal"]}
{"id": "C86", "title": "Sources one after the other", "statement": "Two sources that Parse accepts without errors, joined by a newline, are again accepted without errors exactly if the second does not begin with a byte order mark and the first has no definitions or the second no headers. The tree has the headers of the first and then of the second, and so for the definitions. So sources of definitions can be appended to a file one after the other. Without the newline this fails: a comment takes in what follows, and a last word grows.", "quantifier": "all pairs of sources without errors, all tables of letters and digits beyond ASCII", "why_tests_cant": "A test joins some sources. That no pair of accepted sources interacts across the join (an annotation, a separator, a comment, a token) is a claim on all pairs.", "anchors": ["tools/thriftfile/scanner.go:91-238", "tools/thriftfile/parser.go:188-260"]}
{"id": "C87", "title": "The tokens determine the tree and the token of each error", "statement": "What Parse returns is a function of the tokens of the source and of where they stand: for a sequence of tokens there are one tree and one list of errors, each error at one of the tokens or at the end, and every source with these tokens gets this tree and these errors, at the offsets that the tokens have in it, and beside them what the scanner reports. For two sources without errors of the scanner that have the same tokens, whatever their white space and comments, the errors come in the same order: the n-th of both has the same text and is at the same token, and what was given up is from the same token to the same token.", "quantifier": "all sequences of tokens, all sources (with and without syntax errors), all tables of letters and digits beyond ASCII", "why_tests_cant": "A test compares a few sources with another layout. That no layout moves an error to another token, or changes the order of errors by the line or column of a token, is a claim on all pairs of sources.", "anchors": ["tools/thriftfile/parser.go:24-120", "tools/thriftfile/parser.go:228-262", "tools/thriftfile/parser.go:Parse,errors_"]}
{"id": "C88", "title": "The order in which Go visits the entries of a map makes no difference", "statement": "Go visits the entries of a map in an order of its own. Given two values that differ only in this order (anywhere inside, also in the maps that are the keys or values of others' parts) and in the spare capacity of slices, Marshal accepts both or neither. If it accepts them, it writes two encodings of the same length of wire values that are equal up to the order of map entries. Unmarshal of wire values equal up to the order of map entries, whose maps have no two keys that are equal in the type they are read as, returns nil for both or for neither, and leaves in variables that held the same before the same values but for the order of map entries; so what Marshal wrote in one order and in the other is read back alike.", "quantifier": "all Go types and values, all orders of all maps inside, all IsZero methods that do not look at this order, both protocols, all earlier contents of the variable", "why_tests_cant": "The order of a map is random in Go, so a test sees a few orders of a few maps; that none matters, with maps in maps, pointers, IsZero methods and maps merged with what the variable held, is a claim on all permutations.", "anchors": ["thrift/arshal_default.go:398-478", "thrift/arshal.go:Marshal,Unmarshal", "thrift/fields.go:52-76"]}
{"id": "C89", "title": "Parse does work, and reports errors, in proportion to its source", "statement": "For a source with n tokens that are not comments, well-formed or not, the parser looks at its token, at its place or its text, goes on to the next token, or reports an error at most 22n+2 times altogether; it asks for the next token at most 4n times and reports at most 3n errors. The scanner reports at most two errors for each byte of the source. So Parse returns at most five times as many errors as the source has bytes, and no source makes it go back over what it has read.", "quantifier": "all sources, all tables of letters and digits beyond ASCII, all orders of sorting", "why_tests_cant": "A test measures some sources. That no mixture of nested types, lists, missing tokens and skipped definitions makes the parser report, look or move more than in proportion is a claim on all token sequences.", "anchors": ["tools/thriftfile/parser.go:94-142", "tools/thriftfile/parser.go:188-262", "tools/thriftfile/parser.go:264-526", "tools/thriftfile/scanner.go:59-89", "tools/thriftfile/scanner.go:91-238", "tools/thriftfile/scanner.go:318-380"]}
{"id": "C90", "title": "Marshal makes calls in proportion to what it writes", "statement": "When Marshal succeeds, it has made at least one call on its Writer, and no more than twice as many calls as the bytes that the binary protocol writes, or three times as many as the bytes of the compact protocol. The first bound is reached, up to eight calls, by slices of empty structs. Counting the calls of a Writer does not change what Marshal does, for any Writer and any outcome.", "quantifier": "all Go types and values that Marshal accepts, both protocols, all states of the writers between values", "why_tests_cant": "A test counts the calls for some values. That no nesting of structs, containers and pointers makes Marshal do work for nothing is a claim on all values, by induction.", "anchors": ["thrift/arshal.go:11-38", "thrift/arshal_default.go:68-618", "encoding/thriftbinary/thriftbinary.go:253-417", "encoding/thriftcompact/thriftcompact.go:297-578"]}
{"id": "C91", "title": "What it means that TestProtocol passes", "statement": "If thrifttest.TestProtocol passes with a protocol, whatever its reader and writer do, then for each element of the table, except UUIDs that are not to be tested: a message with a type from 1 to 4 and the value was written and flushed without an error; reading the bytes gave a header of the same type and id, and of the same name unless one of the names is empty, then a value, and left nothing in the buffer; unless the element is marked hasMap, the value that was read was marshalled three times, each time to the same bytes; and three copies of the message, appended one at a time, were skipped without an error. So protocols fail whose readers refuse all messages, lose their type, or never take all of a message from the buffer.", "quantifier": "all protocols (any methods of the writer on a bufio.Writer, any reader on a bufio.Reader), all tables, all Go programs, all iteration orders of maps, with and without UUIDs", "why_tests_cant": "That a test would notice is a claim on all protocols that could be tested with it. Trying it on a few wrong protocols does not show it.", "anchors": ["testing/thrifttest/protocol.go:39-58", "testing/thrifttest/protocol.go:167-240"]}
{"id": "C92", "title": "The tree that Parse returns is made of the tokens of its source", "statement": "For every source, well-formed or not, the names and literals in the tree that Parse returns are, in the order in which they stand in the tree, texts of different tokens of the source in the order of the source, leaving out the empty ones that stand for what is missing: Parse invents no text, uses none twice and exchanges none. If there are no errors, none of the identifiers, numbers and strings of the source is left out of the tree. The tree has at most five nodes for each token that is not a comment, and one for the file, and its texts have together at most as many bytes as the source.", "quantifier": "all sources (any bytes) and all Unicode tables", "why_tests_cant": "It concerns every path of the parser, also those after errors, where the tree is made of what is there; tests compare trees of a few well-formed files. That a small source cannot give a large tree is a bound for all sources.", "anchors": ["tools/thriftfile/parser.go:144-200", "tools/thriftfile/parser.go:230-526", "tools/thriftfile/nodes.go:17-275"]}
{"id": "C93", "title": "The generator of zmemo.go writes what is in the repository, and is right for other interfaces too", "statement": "For the interfaces thriftwire.Reader and thriftwire.Writer as they are, memogen.go generates the text of zmemo.go, up to white space: the generated file is not out of date. Each generated method does at every Memo what the Reader or Writer of a Memo does. The generator panics for just those interfaces that have a method to read, skip or write whose last result is not an error, or a method to skip something else than a string or a UUID. For every pair of interfaces, with any methods Write<X> and Read<X> with any number of parameters and results, what the generated Writer is given in any number of calls the generated Reader returns.", "quantifier": "all memos and methods; all interfaces, all sequences of calls and all values", "why_tests_cant": "A test sees one generated file; that the generator is right for interfaces to which methods are added concerns all interfaces. Nothing in the repository checks that zmemo.go is what memogen.go generates.", "anchors": ["internal/thriftmemo/memogen.go:42-156", "internal/thriftmemo/zmemo.go:1-379", "internal/thriftmemo/memo.go:53-95", "encoding/thriftwire/protocol.go:39-98"]}
{"id": "C94", "title": "Receiving the same value again changes nothing", "statement": "Once Unmarshal has read a value into a variable - whatever the variable held before - reading the same value into the variable again returns nil and leaves the variable as it is, but for the order of map entries and the spare capacity of slices: maps do not grow, slices are not appended to, nil slices and maps stay nil, and pointers are not lost. This holds of every Reader that holds the value, and so of the bytes that Marshal wrote with either protocol, delivered twice. The exception: a map key that is not equal to itself (NaN) adds an entry to the map each time.", "quantifier": "all types without duplicate ids, all variables, all wire values without equal map keys or repeated fields, all Readers, both protocols", "why_tests_cant": "The tests decode each value once, into a fresh variable; that a second delivery is without effect concerns all types, values and earlier contents of the variable.", "anchors": ["thrift/arshal.go:43-72", "thrift/arshal_default.go:321-372", "thrift/arshal_default.go:438-478", "thrift/arshal_default.go:521-567", "thrift/arshal_default.go:609-617"]}
{"id": "C95", "title": "The order in which fields come makes no difference", "statement": "Marshal writes the fields of a struct by ascending id, but other programs may send them in any order. Take two wire values that are the same but for the order of the fields of structs and of the entries of maps, anywhere inside. If Unmarshal reads the one into a variable, it reads the other, exactly to its end, into any variable that held the same before, and both variables then hold the same, but for the order of map entries and the spare capacity of slices. This holds of all Readers, also of two different ones, and so of the bytes of either protocol, for the compact protocol also where ids do not ascend. The exception: of a field that comes twice, the last one counts.", "quantifier": "all types without duplicate ids, all variables, all wire values without equal map keys or repeated fields, all orders, all Readers, both protocols", "why_tests_cant": "The tests decode what Marshal or the tables of thrifttest write, in ascending order; independence of the order concerns all permutations at every depth, and earlier contents of the variable.", "anchors": ["thrift/arshal.go:43-72", "thrift/arshal_default.go:438-478", "thrift/arshal_default.go:521-567", "encoding/thriftcompact/thriftcompact.go:109-131"]}
{"id": "C96", "title": "A struct may be read in two parts", "statement": "Reading a struct into a variable and then another struct into the same variable comes to exactly the same as reading one struct that has the fields of the first followed by those of the second: the same error, if any, and the same contents of the variable, spare capacity and order of map entries included. If the first struct gives an error, the joint struct gives the same error and leaves the variable the same. So the bytes that the binary protocol has for two structs, of any two types, can be joined by leaving out the byte that ends the first. Two structs that have no declared field in common may be read in either order.", "quantifier": "all types that are structs or pointers to structs, all variables, all lists of fields (also unknown, repeated or of a wrong type), all Readers", "why_tests_cant": "The tests read each struct in one piece into a fresh variable; the law concerns all places at which a struct can be cut, all contents of the variable and all errors.", "anchors": ["thrift/arshal.go:43-72", "thrift/arshal_default.go:321-372", "thrift/arshal_default.go:609-617", "encoding/thriftbinary/thriftbinary.go"]}
{"id": "C97", "title": "What Marshal writes can be taken apart in one way only", "statement": "In either protocol, of what Marshal writes for two values whose types have the same wire type, neither is a proper beginning of the other. So if two streams are equal and begin with such values, the first values end at the same place, and a stream of any number of values can be cut into the values in one way only, given the wire types. Two values of the same type of which the one is written as a beginning of the other are received alike: there is a value that is the round trip of both.", "quantifier": "all values of all types within the size limits of the protocol, all prior contents of the buffers, all bytes that follow, all numbers of values", "why_tests_cant": "That no encoding is a beginning of another is a statement on all pairs of values; tests compare single values with single encodings.", "anchors": ["thrift/arshal.go:16-41", "thrift/arshal_default.go", "encoding/thriftwire/skip.go", "encoding/thriftbinary/thriftbinary.go", "encoding/thriftcompact/thriftcompact.go"]}
{"id": "C98", "title": "A map may be read in two parts", "statement": "Reading a map into a variable and then another map into the same variable comes to exactly the same as reading one map that has the entries of the first followed by those of the second: the same error, if any, and the same contents of the variable, order of entries and entries with the key NaN included. If the first map gives an error, the joint map gives the same error and leaves the variable the same. A struct in which a field that is a map comes twice in a row is read like the struct in which the field comes once with the entries of both.", "quantifier": "all types that are maps or pointers to maps (for fields: all structs and pointers to structs), all variables, nil maps included, all lists of entries (also repeated keys, entries of a wrong type), all Readers", "why_tests_cant": "The tests read each map in one piece into a fresh variable; the law concerns all places at which a map can be cut, all contents of the variable and all errors.", "anchors": ["thrift/arshal.go:43-72", "thrift/arshal_default.go:438-476", "thrift/arshal_default.go:321-372"]}
