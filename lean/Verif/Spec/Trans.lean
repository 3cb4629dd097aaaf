import Verif.Model.Trans
import Verif.Spec.New
/-! # The decision table for requests -/
namespace Saratoga

/-- What matters of a request and of the receiver. -/
structure Asked where
  version : String
  udplite : String
  stream : String
  rxwilling : String
  txwilling : String
  reqtype : String
  present : Bool
  removable : Bool

/-- The code of the first line whose condition holds. -/
def firstCode (otherwise : String) : List (Bool × String) → String
  | [] => otherwise
  | (c, code) :: rest => if c then code else firstCode otherwise rest

/-- The decision table. -/
def Asked.code (q : Asked) : String :=
  firstCode "success" [
    (q.version != "v1", "badrequest"),
    (q.udplite != "no", "badrequest"),
    (q.stream != "no", "badrequest"),
    (q.rxwilling == "invalid", "cantreceive"),
    (q.txwilling == "invalid", "cantsend"),
    (!["get", "getdir", "take", "put", "give", "delete"].contains q.reqtype, "badrequest"),
    (["get", "getdir", "take"].contains q.reqtype && q.rxwilling != "yes", "cantreceive"),
    (["put", "give"].contains q.reqtype && q.txwilling != "yes", "cantsend"),
    (["get", "getdir", "take", "delete"].contains q.reqtype && !q.present, "filenotfound"),
    (["put", "give"].contains q.reqtype && q.present, "fileinuse"),
    (q.reqtype == "delete" && !q.removable, "didnotdelete")]

/-- The request's flags can be read, and read like this; the file is there or not, and its removal would
succeed or not. -/
structure Asks (T : Tables) (sardir : List Byte) (fs : FS) (r : Request) (q : Asked) : Prop where
  version : getStr T r.header "version" = .ret q.version
  udplite : getStr T r.header "udplite" = .ret q.udplite
  stream : getStr T r.header "stream" = .ret q.stream
  rxwilling : getStr T r.header "rxwilling" = .ret q.rxwilling
  txwilling : getStr T r.header "txwilling" = .ret q.txwilling
  reqtype : getStr T r.header "request" = .ret q.reqtype
  present : q.present = fileExists sardir fs r.fname
  removable : q.removable = decide ((fileRm sardir fs r.fname).2 = none)

/-- Error codes the handler uses. -/
def tranCodes : List String :=
  ["badrequest", "cantreceive", "cantsend", "filenotfound", "didnotdelete", "fileinuse", "success"]

/-- The tables have what the handler needs. -/
structure TranTables (T : Tables) : Prop where
  sep : Separated T statusFields
  version : valid T "version" "v1" = true
  frametype : valid T "frametype" "status" = true
  codes : ∀ c ∈ tranCodes, valid T "errcode" c = true
  epoch : goodT T "epoch_2000_32" = true

end Saratoga
