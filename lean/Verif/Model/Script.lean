import Verif.Model.Evaluation

/-! Model of `build.rs` and of the way `src/evaluate/static_lookup.rs` takes in what it leaves behind.

The outside world is a parameter: the environment variables, whether the file can be created, what the
server answers and how far the writing gets.  What the script changes is recorded: the files and the
requests it sends. -/

namespace Poker.Script

/-- The contents of a file. -/
abbrev Bytes := List (BitVec 8)

/-- The answer of a server: the status is not looked at by the script. -/
structure Response where
  status : Nat
  /-- `response.bytes()`: the body, or an error while it is received. -/
  bytes : Option Bytes

/-- What the script cannot control. -/
structure Outside where
  /-- `cfg!(feature = "static_lookup")`, chosen when the crate is built. -/
  feature : Bool
  /-- `env::var`: `none` if the variable is missing or not Unicode. -/
  var : Str → Option Str
  /-- Whether `File::create` succeeds for the path. -/
  create : Str → Bool
  /-- `reqwest::blocking::get`: `none` is an error (no connection, no such host, ...). -/
  get : Str → Option Response
  /-- `write_all`: `none` if all bytes are written, else the number of bytes written before the error. -/
  write : Bytes → Option Nat

/-- What the script leaves behind. -/
structure World where
  files : Str → Option Bytes
  requests : List Str

/-- How a run ends. -/
inductive Outcome
  | ok
  /-- `main` returns `Err`. -/
  | err
  | panic (message : Str)
  deriving DecidableEq, Repr

/-- build.rs:5-6, `URL`. -/
def URL : Str :=
  "https://raw.githubusercontent.com/deus-x-mackina/poker-lookup-table/8e22032a6280eb790a13cc16b26efe4e16d1f43a/codegen.txt".toList

/-- `PathBuf::join` of a relative path on Unix: a separator unless the first part is empty or ends in
one. -/
def join (base name : Str) : Str :=
  match base.getLast? with
  | none => name
  | some c => if c = '/' then base ++ name else base ++ '/' :: name

/-- `File::create`: the file is there and empty, whatever it was. -/
def World.put (w : World) (path : Str) (contents : Bytes) : World :=
  { w with files := fun p => if p = path then some contents else w.files p }

/-- build.rs:24-25, the message of the panic. -/
def noConnection : Str :=
  "You need to be connected to the internet in order to build `poker` with ".toList
    ++ "`static_lookup`".toList

/-- build.rs:21-29: create the file, ask for the tables, write them. -/
def fetch (o : Outside) (w : World) (path url message : Str) : Outcome × World :=
  if !o.create path then (.err, w)
  else
    let w := w.put path []
    let w := { w with requests := w.requests ++ [url] }
    match o.get url with
    | none => (.panic message, w)
    | some response => match response.bytes with
      | none => (.err, w)
      | some bytes => match o.write bytes with
        | some n => (.err, w.put path (bytes.take n))
        | none => (.ok, w.put path bytes)

/-- build.rs:8-33, `main`. -/
def main (o : Outside) (w : World) : Outcome × World :=
  if !o.feature then (.ok, w)
  else
    let docsrs := (o.var "DOCS_RS".toList).getD []
    if docsrs = "1".toList then (.ok, w)
    else match o.var "OUT_DIR".toList with
      | none => (.err, w)
      | some dir => fetch o w (join dir "codegen.rs".toList) URL noConnection

/-- src/evaluate/static_lookup.rs:25, the path that `include!` reads. -/
def included (out_dir : Str) : Str := out_dir ++ "/codegen.rs".toList

/-- src/evaluate/static_lookup.rs:23-34, `mod statics`: the tables built into the library, `none` if the crate
does not compile.  `docsrs` is the compiler flag `--cfg docsrs`; `compile` is what the compiler makes of
the text of the file. -/
def statics (docsrs : Bool) (compile : Bytes → Option StaticLookup.Statics) (out_dir : Str) (w : World) :
    Option StaticLookup.Statics :=
  if docsrs then some { FLUSH_LOOKUP := .empty, UNSUITED_LOOKUP := .empty }
  else (w.files (included out_dir)).bind compile

end Poker.Script
