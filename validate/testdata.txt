import Verif.Props.ParseText

/-!
Runs the model of `Parse` on files and prints what it returns. Not part of the proofs: a comparison of the model with the tests of the repository. From /verif/lean:

    lake env lean --run ../validate/testdata.txt $(find /repo/tools/thriftfile/testdata -name '*.thrift')
-/

open GoThrift GoThrift.Idl

def bytesOfFile (b : ByteArray) : Bytes := b.toList.map fun x => BitVec.ofNat 8 x.toNat

def stringOf (b : Bytes) : String := String.fromUTF8! ⟨(b.map fun x => UInt8.ofNat x.toNat).toArray⟩

def main (args : List String) : IO UInt32 := do
  for a in args do
    let src := bytesOfFile (← IO.FS.readBinFile a)
    match Parse exIdlEnv src with
    | .done (f, errs) =>
      IO.println s!"{a}: {f.headers.length} headers, {f.defs.length} definitions, {errs.length} errors"
      for e in errs do IO.println s!"  {e.line}:{e.column}: {stringOf (e.msg.text exIdlEnv)}"
    | _ => IO.println s!"{a}: no result"
  return 0
