import Verif.Model.MemoGen

/-!
# The file internal/thriftmemo/zmemo.go
-/

namespace GoThrift.MemoGen

/-- The lines of internal/thriftmemo/zmemo.go before the first method (1-10). -/
def zhead : List Text := [c! "// Code generated by \"go run tmemogen.go\"; DO NOT EDIT.", c! "", c! "package thriftmemo", c! "", c! "import (", c! "\t\"io\"", c! "", c! "\t\"github.com/itstarsun/go-thrift/encoding/thriftwire\"", c! ")", c! ""]

/-- The lines of the methods of memoReader (11-200). -/
def zreader : List (List Text) := [
  [c! "func (m *memoReader) ReadBool() (o0 bool, o1 error) {", c! "\tif o1 = m.advance(); o1 != nil {", c! "\t\treturn", c! "\t}", c! "\tm.memo().read(\"Bool\", &o0)", c! "\treturn", c! "}", c! ""],
  [c! "func (m *memoReader) ReadByte() (o0 byte, o1 error) {", c! "\tif o1 = m.advance(); o1 != nil {", c! "\t\treturn", c! "\t}", c! "\tm.memo().read(\"Byte\", &o0)", c! "\treturn", c! "}", c! ""],
  [c! "func (m *memoReader) ReadBytes(i0 []byte) (o0 []byte, o1 error) {", c! "\tif o1 = m.advance(); o1 != nil {", c! "\t\treturn", c! "\t}", c! "\tm.memo().read(\"Bytes\", &o0)", c! "\treturn", c! "}", c! ""],
  [c! "func (m *memoReader) ReadDouble() (o0 float64, o1 error) {", c! "\tif o1 = m.advance(); o1 != nil {", c! "\t\treturn", c! "\t}", c! "\tm.memo().read(\"Double\", &o0)", c! "\treturn", c! "}", c! ""],
  [c! "func (m *memoReader) ReadFieldBegin() (o0 thriftwire.FieldHeader, o1 error) {", c! "\tif o1 = m.advance(); o1 != nil {", c! "\t\treturn", c! "\t}", c! "\tm.memo().read(\"FieldBegin\", &o0)", c! "\treturn", c! "}", c! ""],
  [c! "func (m *memoReader) ReadFieldEnd() (o0 error) {", c! "\tif o0 = m.advance(); o0 != nil {", c! "\t\treturn", c! "\t}", c! "\tm.memo().read(\"FieldEnd\")", c! "\treturn", c! "}", c! ""],
  [c! "func (m *memoReader) ReadI16() (o0 int16, o1 error) {", c! "\tif o1 = m.advance(); o1 != nil {", c! "\t\treturn", c! "\t}", c! "\tm.memo().read(\"I16\", &o0)", c! "\treturn", c! "}", c! ""],
  [c! "func (m *memoReader) ReadI32() (o0 int32, o1 error) {", c! "\tif o1 = m.advance(); o1 != nil {", c! "\t\treturn", c! "\t}", c! "\tm.memo().read(\"I32\", &o0)", c! "\treturn", c! "}", c! ""],
  [c! "func (m *memoReader) ReadI64() (o0 int64, o1 error) {", c! "\tif o1 = m.advance(); o1 != nil {", c! "\t\treturn", c! "\t}", c! "\tm.memo().read(\"I64\", &o0)", c! "\treturn", c! "}", c! ""],
  [c! "func (m *memoReader) ReadListBegin() (o0 thriftwire.ListHeader, o1 error) {", c! "\tif o1 = m.advance(); o1 != nil {", c! "\t\treturn", c! "\t}", c! "\tm.memo().read(\"ListBegin\", &o0)", c! "\treturn", c! "}", c! ""],
  [c! "func (m *memoReader) ReadListEnd() (o0 error) {", c! "\tif o0 = m.advance(); o0 != nil {", c! "\t\treturn", c! "\t}", c! "\tm.memo().read(\"ListEnd\")", c! "\treturn", c! "}", c! ""],
  [c! "func (m *memoReader) ReadMapBegin() (o0 thriftwire.MapHeader, o1 error) {", c! "\tif o1 = m.advance(); o1 != nil {", c! "\t\treturn", c! "\t}", c! "\tm.memo().read(\"MapBegin\", &o0)", c! "\treturn", c! "}", c! ""],
  [c! "func (m *memoReader) ReadMapEnd() (o0 error) {", c! "\tif o0 = m.advance(); o0 != nil {", c! "\t\treturn", c! "\t}", c! "\tm.memo().read(\"MapEnd\")", c! "\treturn", c! "}", c! ""],
  [c! "func (m *memoReader) ReadMessageBegin() (o0 thriftwire.MessageHeader, o1 error) {", c! "\tif o1 = m.advance(); o1 != nil {", c! "\t\treturn", c! "\t}", c! "\tm.memo().read(\"MessageBegin\", &o0)", c! "\treturn", c! "}", c! ""],
  [c! "func (m *memoReader) ReadMessageEnd() (o0 error) {", c! "\tif o0 = m.advance(); o0 != nil {", c! "\t\treturn", c! "\t}", c! "\tm.memo().read(\"MessageEnd\")", c! "\treturn", c! "}", c! ""],
  [c! "func (m *memoReader) ReadSetBegin() (o0 thriftwire.SetHeader, o1 error) {", c! "\tif o1 = m.advance(); o1 != nil {", c! "\t\treturn", c! "\t}", c! "\tm.memo().read(\"SetBegin\", &o0)", c! "\treturn", c! "}", c! ""],
  [c! "func (m *memoReader) ReadSetEnd() (o0 error) {", c! "\tif o0 = m.advance(); o0 != nil {", c! "\t\treturn", c! "\t}", c! "\tm.memo().read(\"SetEnd\")", c! "\treturn", c! "}", c! ""],
  [c! "func (m *memoReader) ReadString() (o0 string, o1 error) {", c! "\tif o1 = m.advance(); o1 != nil {", c! "\t\treturn", c! "\t}", c! "\tm.memo().read(\"String\", &o0)", c! "\treturn", c! "}", c! ""],
  [c! "func (m *memoReader) ReadStructBegin() (o0 thriftwire.StructHeader, o1 error) {", c! "\tif o1 = m.advance(); o1 != nil {", c! "\t\treturn", c! "\t}", c! "\tm.memo().read(\"StructBegin\", &o0)", c! "\treturn", c! "}", c! ""],
  [c! "func (m *memoReader) ReadStructEnd() (o0 error) {", c! "\tif o0 = m.advance(); o0 != nil {", c! "\t\treturn", c! "\t}", c! "\tm.memo().read(\"StructEnd\")", c! "\treturn", c! "}", c! ""],
  [c! "func (m *memoReader) ReadUUID(i0 *[16]byte) (o0 error) {", c! "\tif o0 = m.advance(); o0 != nil {", c! "\t\treturn", c! "\t}", c! "\tm.memo().read(\"UUID\", i0)", c! "\treturn", c! "}", c! ""],
  [c! "func (m *memoReader) Reset(i0 io.Reader) {", c! "\tpanic(\"unsupported\")", c! "}", c! ""],
  [c! "func (m *memoReader) SkipString() (o0 error) {", c! "\tif o0 = m.advance(); o0 != nil {", c! "\t\treturn", c! "\t}", c! "\tvar tmp string", c! "\tm.memo().read(\"String\", &tmp)", c! "\treturn", c! "}", c! ""],
  [c! "func (m *memoReader) SkipUUID() (o0 error) {", c! "\tif o0 = m.advance(); o0 != nil {", c! "\t\treturn", c! "\t}", c! "\tvar tmp [16]byte", c! "\tm.memo().read(\"UUID\", &tmp)", c! "\treturn", c! "}", c! ""]]

/-- The lines of the methods of memoWriter (201-379). -/
def zwriter : List (List Text) := [
  [c! "func (m *memoWriter) Flush() (o0 error) {", c! "\tpanic(\"unsupported\")", c! "}", c! ""],
  [c! "func (m *memoWriter) Reset(i0 io.Writer) {", c! "\tpanic(\"unsupported\")", c! "}", c! ""],
  [c! "func (m *memoWriter) WriteBool(i0 bool) (o0 error) {", c! "\tif o0 = m.advance(); o0 != nil {", c! "\t\treturn", c! "\t}", c! "\tm.memo().write(\"Bool\", i0)", c! "\treturn", c! "}", c! ""],
  [c! "func (m *memoWriter) WriteByte(i0 byte) (o0 error) {", c! "\tif o0 = m.advance(); o0 != nil {", c! "\t\treturn", c! "\t}", c! "\tm.memo().write(\"Byte\", i0)", c! "\treturn", c! "}", c! ""],
  [c! "func (m *memoWriter) WriteBytes(i0 []byte) (o0 error) {", c! "\tif o0 = m.advance(); o0 != nil {", c! "\t\treturn", c! "\t}", c! "\tm.memo().write(\"Bytes\", i0)", c! "\treturn", c! "}", c! ""],
  [c! "func (m *memoWriter) WriteDouble(i0 float64) (o0 error) {", c! "\tif o0 = m.advance(); o0 != nil {", c! "\t\treturn", c! "\t}", c! "\tm.memo().write(\"Double\", i0)", c! "\treturn", c! "}", c! ""],
  [c! "func (m *memoWriter) WriteFieldBegin(i0 thriftwire.FieldHeader) (o0 error) {", c! "\tif o0 = m.advance(); o0 != nil {", c! "\t\treturn", c! "\t}", c! "\tm.memo().write(\"FieldBegin\", i0)", c! "\treturn", c! "}", c! ""],
  [c! "func (m *memoWriter) WriteFieldEnd() (o0 error) {", c! "\tif o0 = m.advance(); o0 != nil {", c! "\t\treturn", c! "\t}", c! "\tm.memo().write(\"FieldEnd\")", c! "\treturn", c! "}", c! ""],
  [c! "func (m *memoWriter) WriteI16(i0 int16) (o0 error) {", c! "\tif o0 = m.advance(); o0 != nil {", c! "\t\treturn", c! "\t}", c! "\tm.memo().write(\"I16\", i0)", c! "\treturn", c! "}", c! ""],
  [c! "func (m *memoWriter) WriteI32(i0 int32) (o0 error) {", c! "\tif o0 = m.advance(); o0 != nil {", c! "\t\treturn", c! "\t}", c! "\tm.memo().write(\"I32\", i0)", c! "\treturn", c! "}", c! ""],
  [c! "func (m *memoWriter) WriteI64(i0 int64) (o0 error) {", c! "\tif o0 = m.advance(); o0 != nil {", c! "\t\treturn", c! "\t}", c! "\tm.memo().write(\"I64\", i0)", c! "\treturn", c! "}", c! ""],
  [c! "func (m *memoWriter) WriteListBegin(i0 thriftwire.ListHeader) (o0 error) {", c! "\tif o0 = m.advance(); o0 != nil {", c! "\t\treturn", c! "\t}", c! "\tm.memo().write(\"ListBegin\", i0)", c! "\treturn", c! "}", c! ""],
  [c! "func (m *memoWriter) WriteListEnd() (o0 error) {", c! "\tif o0 = m.advance(); o0 != nil {", c! "\t\treturn", c! "\t}", c! "\tm.memo().write(\"ListEnd\")", c! "\treturn", c! "}", c! ""],
  [c! "func (m *memoWriter) WriteMapBegin(i0 thriftwire.MapHeader) (o0 error) {", c! "\tif o0 = m.advance(); o0 != nil {", c! "\t\treturn", c! "\t}", c! "\tm.memo().write(\"MapBegin\", i0)", c! "\treturn", c! "}", c! ""],
  [c! "func (m *memoWriter) WriteMapEnd() (o0 error) {", c! "\tif o0 = m.advance(); o0 != nil {", c! "\t\treturn", c! "\t}", c! "\tm.memo().write(\"MapEnd\")", c! "\treturn", c! "}", c! ""],
  [c! "func (m *memoWriter) WriteMessageBegin(i0 thriftwire.MessageHeader) (o0 error) {", c! "\tif o0 = m.advance(); o0 != nil {", c! "\t\treturn", c! "\t}", c! "\tm.memo().write(\"MessageBegin\", i0)", c! "\treturn", c! "}", c! ""],
  [c! "func (m *memoWriter) WriteMessageEnd() (o0 error) {", c! "\tif o0 = m.advance(); o0 != nil {", c! "\t\treturn", c! "\t}", c! "\tm.memo().write(\"MessageEnd\")", c! "\treturn", c! "}", c! ""],
  [c! "func (m *memoWriter) WriteSetBegin(i0 thriftwire.SetHeader) (o0 error) {", c! "\tif o0 = m.advance(); o0 != nil {", c! "\t\treturn", c! "\t}", c! "\tm.memo().write(\"SetBegin\", i0)", c! "\treturn", c! "}", c! ""],
  [c! "func (m *memoWriter) WriteSetEnd() (o0 error) {", c! "\tif o0 = m.advance(); o0 != nil {", c! "\t\treturn", c! "\t}", c! "\tm.memo().write(\"SetEnd\")", c! "\treturn", c! "}", c! ""],
  [c! "func (m *memoWriter) WriteString(i0 string) (o0 error) {", c! "\tif o0 = m.advance(); o0 != nil {", c! "\t\treturn", c! "\t}", c! "\tm.memo().write(\"String\", i0)", c! "\treturn", c! "}", c! ""],
  [c! "func (m *memoWriter) WriteStructBegin(i0 thriftwire.StructHeader) (o0 error) {", c! "\tif o0 = m.advance(); o0 != nil {", c! "\t\treturn", c! "\t}", c! "\tm.memo().write(\"StructBegin\", i0)", c! "\treturn", c! "}", c! ""],
  [c! "func (m *memoWriter) WriteStructEnd() (o0 error) {", c! "\tif o0 = m.advance(); o0 != nil {", c! "\t\treturn", c! "\t}", c! "\tm.memo().write(\"FieldBegin\", thriftwire.FieldHeader{Name: \"\", Type: 0x0, ID: 0})", c! "\tif o0 = m.advance(); o0 != nil {", c! "\t\treturn", c! "\t}", c! "\tm.memo().write(\"StructEnd\")", c! "\treturn", c! "}", c! ""],
  [c! "func (m *memoWriter) WriteUUID(i0 *[16]byte) (o0 error) {", c! "\tif o0 = m.advance(); o0 != nil {", c! "\t\treturn", c! "\t}", c! "\tm.memo().write(\"UUID\", *i0)", c! "\treturn", c! "}"]]

/-- The lines of internal/thriftmemo/zmemo.go. -/
def zmemo : List Text := zhead ++ zreader.flatten ++ zwriter.flatten

/-- A text without spaces, tabs and ends of lines. -/
def squeeze (s : Text) : Text := s.filter fun c => c ≠ ' ' && c ≠ '\t' && c ≠ '\n'

end GoThrift.MemoGen
