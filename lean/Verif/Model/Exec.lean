import Verif.Model.Serializer
/-!
# Code run while a message is read

`decode` runs code in two places: `pickle.loads` (/repo/teleprox/serializer.py:174) and `exec` of the text of a
structured dtype (/repo/teleprox/serializer.py:167-171). The functions below are those of `Verif.Model.Serializer` that
also list these calls in order.
-/
namespace Verif

/-- A call that runs what arrived in the message: `pickle.loads(b)` or `exec('dtype=' + s)`;
/repo/teleprox/serializer.py:170, 174. -/
inductive Ran where
  | pickle (b : Bytes)
  | exec (s : String)
  deriving DecidableEq, Repr

/-- What one call of `Serializer.decode` runs; /repo/teleprox/serializer.py:163-174. Simplification: as in `decode`,
only exact str and bytes objects reach `exec` and `pickle.loads`; a served object of a subclass does not. -/
def decodeRuns (d : List (Val × Val)) : List Ran :=
  match (lookupStr d encodeKey).bind Val.text? with
  | some "ndarray" =>
    match lookupStr (removeStr d encodeKey) "dtype" with
    | some (.str dt) => if startsWithC '[' dt then [.exec dt] else []
    | _ => []
  | some "pickle" =>
    match lookupStr (removeStr d encodeKey) "pickle_str" with
    | some (.bytes b) => [.pickle b]
    | _ => []
  | _ => []

mutual
/-- `msgpack.loads(msg, object_hook=self.decode)` with the calls that run code; /repo/teleprox/serializer.py:259. -/
def unpackT (R : RecvEnv) : Wire → List Ran × Except Exc Val
  | .nil => ([], .ok .none)
  | .bool b => ([], .ok (.bool b))
  | .int i => ([], .ok (.int i))
  | .float f => ([], .ok (.float f))
  | .str s => ([], .ok (.str s))
  | .bin b => ([], .ok (.bytes b))
  | .arr l =>
    match unpackTL R l with
    | (o, .ok vs) => (o, .ok (.list vs))
    | (o, .error e) => (o, .error e)
  | .map m =>
    match unpackTM R m with
    | (o, .ok d) => (o ++ decodeRuns (dictOf d), decode R (dictOf d))
    | (o, .error e) => (o, .error e)

/-- Items of an array. Part of /repo/teleprox/serializer.py:259. -/
def unpackTL (R : RecvEnv) : List Wire → List Ran × Except Exc (List Val)
  | [] => ([], .ok [])
  | w :: ws =>
    match unpackT R w with
    | (o, .error e) => (o, .error e)
    | (o, .ok v) =>
      match unpackTL R ws with
      | (o', .ok vs) => (o ++ o', .ok (v :: vs))
      | (o', .error e) => (o ++ o', .error e)

/-- Entries of a map. Part of /repo/teleprox/serializer.py:259. -/
def unpackTM (R : RecvEnv) : List (Wire × Wire) → List Ran × Except Exc (List (Val × Val))
  | [] => ([], .ok [])
  | (k, w) :: r =>
    match unpackT R k with
    | (o, .error e) => (o, .error e)
    | (o, .ok kv) =>
      if ¬ keyOk kv then (o, .error .valueError)
      else
        match unpackT R w with
        | (o', .error e) => (o ++ o', .error e)
        | (o', .ok v) =>
          match unpackTM R r with
          | (o'', .ok d) => (o ++ o' ++ o'', .ok ((kv, v) :: d))
          | (o'', .error e) => (o ++ o' ++ o'', .error e)
end

/-- What one call of `JsonSerializer.decode` runs: arrays and bytes are read by the method itself, the rest by the base
class; /repo/teleprox/serializer.py:311-323. -/
def jdecodeRuns (d : List (Val × Val)) : List Ran :=
  match (lookupStr d encodeKey).bind Val.text? with
  | some "ndarray" => []
  | some "bytes" => []
  | _ => decodeRuns d

mutual
/-- `json.loads(msg, object_hook=self.decode)` with the calls that run code; /repo/teleprox/serializer.py:291. -/
def junpackT (R : RecvEnv) : Wire → List Ran × Except Exc Val
  | .nil => ([], .ok .none)
  | .bool b => ([], .ok (.bool b))
  | .int i => ([], .ok (.int i))
  | .float f => ([], .ok (.float f))
  | .str s => ([], .ok (.str s))
  | .bin _ => ([], .error .valueError)
  | .arr l =>
    match junpackTL R l with
    | (o, .ok vs) => (o, .ok (.list vs))
    | (o, .error e) => (o, .error e)
  | .map m =>
    match junpackTM R m with
    | (o, .ok d) => (o ++ jdecodeRuns (dictOf d), jdecode R (dictOf d))
    | (o, .error e) => (o, .error e)

/-- Items of an array. Part of /repo/teleprox/serializer.py:291. -/
def junpackTL (R : RecvEnv) : List Wire → List Ran × Except Exc (List Val)
  | [] => ([], .ok [])
  | w :: ws =>
    match junpackT R w with
    | (o, .error e) => (o, .error e)
    | (o, .ok v) =>
      match junpackTL R ws with
      | (o', .ok vs) => (o ++ o', .ok (v :: vs))
      | (o', .error e) => (o ++ o', .error e)

/-- Entries of an object. Part of /repo/teleprox/serializer.py:291. Simplification: a tree with a key that is no text,
which JSON cannot express, is refused at that key. -/
def junpackTM (R : RecvEnv) : List (Wire × Wire) → List Ran × Except Exc (List (Val × Val))
  | [] => ([], .ok [])
  | (.str k, w) :: r =>
    match junpackT R w with
    | (o, .error e) => (o, .error e)
    | (o, .ok v) =>
      match junpackTM R r with
      | (o', .ok d) => (o ++ o', .ok ((.str k, v) :: d))
      | (o', .error e) => (o ++ o', .error e)
  | (_, _) :: _ => ([], .error .valueError)
end

end Verif
