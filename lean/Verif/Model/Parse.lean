import Verif.Model.Resolve
import Verif.Model.ValidateAll

/-!
# Parsing a document (parse.go:306-411)

`n` bounds the nested calls, `m` the turns of the loop over unresolved shapes.
-/

namespace GoRaml

/-- parse.go:343-384: decode the fragment by the kind its head names; the result is the entry point. -/
def decodeEntry (E : Env) (n : Nat) (text path : String) : M St FragRef :=
  M.bind (M.lift (readHead text)) fun head =>
  M.bind (M.lift (identifyFragment head)) fun kind =>
  match kind with
  | .library => M.bind (decodeLibrary E (calls E n) text path) fun i => M.ret (.library i)
  | .dataType => M.bind (decodeDataType E (calls E n) text path) fun i => M.ret (.dataType i)
  | .namedExample => M.bind (decodeNamedExample E text path) fun i => M.ret (.namedExample i)

/-- parse.go:342-394 `parseFragment`, without the options `OptWithUnwrap` and `OptWithValidate`. -/
def parseFragment (E : Env) (n m : Nat) (text path : String) : M St FragRef :=
  M.bind (decodeEntry E n text path) fun f =>
  M.bind (resolveShapes E n m) fun _ =>
  M.bind resolveDomainExtensions fun _ => M.ret f

/-- parse.go:306-328 `ParseFromPath`, without options; the file is closed again, and a failure to do so is left out. -/
def parseFromPath (E : Env) (n m : Nat) (path : String) : M St FragRef :=
  match E.file path with
  | none => M.err "open fragment file"
  | some text => parseFragment E n m text path

end GoRaml
