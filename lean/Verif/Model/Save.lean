import Verif.Model.Container
/-! Model of the file operations of `Vfb.write` (vfb/vfb.py:315-342), one by one, for C86. -/
set_option autoImplicit false
namespace Verif
variable {D T : Type}

/-- The loop of `write_bytes` — vfb/vfb.py:337-342: the arguments of the successive calls of `buffer.write`, and the
result.  (Fetching `entry.header` may raise, and so may the assertion.) -/
def emitCalls : List (Entry D T) → Except PyErr Unit × List Bytes
  | [] => (.ok (), [])
  | e :: es =>
    match e.header with
    | (.error x, _) => (.error x, [])
    | (.ok h, e') =>
      match e'.data with
      | .dec _ => (.error .assertion, [h])
      | .none =>
        match emitCalls es with
        | (r, calls) => (r, h :: calls)
      | .bytes b =>
        match emitCalls es with
        | (r, calls) => (r, h :: b :: calls)

/-- `Vfb.write_bytes` — vfb/vfb.py:322-342: the arguments of the successive calls of `buffer.write`, and the result -/
def Vfb.writeCalls (C : Codec D T) (v : Vfb D T) : Except PyErr Unit × List Bytes :=
  match v.compile C with
  | (.error x, _) => (.error x, [])
  | (.ok (), v') =>
    match v'.header with
    | .bytes hb =>
      match emitCalls v'.entries with
      | (r, calls) => (r, hb :: calls)
    | _ => (.error .assertion, [])

/-- `Vfb.write` — vfb/vfb.py:315-320: the successive operations on the file at `out_path`: `open(out_path, "wb")`, which
empties it, and the calls of `write` -/
inductive FileOp where
  | truncate
  | append (b : Bytes)
  deriving DecidableEq, Repr

/-- all operations of a save — vfb/vfb.py:319-320 -/
def Vfb.writeOps (C : Codec D T) (v : Vfb D T) : List FileOp := .truncate :: (v.writeCalls C).2.map .append

/-- the contents of a file after an operation — vfb/vfb.py:315-342 -/
def FileOp.apply (content : Bytes) : FileOp → Bytes
  | .truncate => []
  | .append b => content ++ b

end Verif
