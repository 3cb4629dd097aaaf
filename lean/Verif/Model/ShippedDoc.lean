import Verif.Model.Config
import Verif.Model.Shipped
/-!
# The file `saratoga/saratoga.json` as shipped, decoded

Generated from the file, members in file order. Numbers are integers there, so `F` is `Int`.
-/
namespace Saratoga

/-- The conversions of whole numbers that fit (sarflags/sarflags.go:352-566). -/
def intConv : Conv Int := ⟨id, Int.toNat, BitVec.ofInt 32, BitVec.ofInt 16, BitVec.ofInt 8⟩

/-- The object `"timeout"` (saratoga/saratoga.json:22-29). -/
def doc_timeout : List (String × Json Int) := [
  ("metadata", .num 55),
  ("request", .num 56),
  ("status", .num 57),
  ("transfer", .num 58),
  ("binterval", .num 3),
  ("datacounter", .num 100)]

/-- The object `"commands"` (saratoga/saratoga.json:30-167). -/
def doc_commands : List (String × Json Int) := [
  ("?", .obj [("usage", .str "?"),
    ("help", .str "show valid commands. cmd ? shows the individual commands usage")]),
  ("beacon", .obj [("usage", .str "beacon [off] [v4|v6|<ip>...]"),
    ("help", .str "send bcount beacons every interval secs. off is ignore beacons")]),
  ("bcount", .obj [("usage", .str "bcount [numb]"),
    ("help", .str "set number of beacons to send")]),
  ("cancel", .obj [("usage", .str "cancel <transfer>"),
    ("help", .str "cancel a current transfer in progress")]),
  ("checksum", .obj [("usage", .str "checksum [off|none|crc32|md5|sha1]"),
    ("help", .str "set checksums required and type")]),
  ("clear", .obj [("usage", .str "clear [msg|err|packet]..."),
    ("help", .str "clear display window view")]),
  ("delete", .obj [("usage", .str "delete <peer> <filename>"),
    ("help", .str "remove a file from a peer")]),
  ("descriptor", .obj [("usage", .str "descriptor [auto|d16|d32|d64|d128]"),
    ("help", .str "advertise & set default descriptor size")]),
  ("exit", .obj [("usage", .str "exit [0|1]"),
    ("help", .str "exit saratoga")]),
  ("files", .obj [("usage", .str "files"),
    ("help", .str "list local files currently open and mode")]),
  ("freespace", .obj [("usage", .str "freespace [yes|no]"),
    ("help", .str "advertise freespace or show amount left")]),
  ("get", .obj [("usage", .str "get [<peer> <filename>]"),
    ("help", .str "get a file from a peer")]),
  ("getdir", .obj [("usage", .str "getdir [<peer> <dirname>]"),
    ("help", .str "get a directory listing from a peer")]),
  ("give", .obj [("usage", .str "give <peer> <filename>"),
    ("help", .str "send a file to a peer and then remove it when successful")]),
  ("help", .obj [("usage", .str "help"),
    ("help", .str "show commands")]),
  ("history", .obj [("usage", .str "history"),
    ("help", .str "show command history")]),
  ("home", .obj [("usage", .str "home [<dirname>]"),
    ("help", .str "set home directory for transfers")]),
  ("interval", .obj [("usage", .str "interval [seconds]"),
    ("help", .str "set interval between sending beacons")]),
  ("ls", .obj [("usage", .str "ls [<peer> [<dirname>>]]"),
    ("help", .str "show local or a peers directory contents")]),
  ("peers", .obj [("usage", .str "peers"),
    ("help", .str "list current peers found")]),
  ("put", .obj [("usage", .str "put <peer> <filename>"),
    ("help", .str "send a file to a peer")]),
  ("putblind", .obj [("usage", .str "putblind <peer> <filename>"),
    ("help", .str "send a file to a peer with no initial request/status exchange")]),
  ("quit", .obj [("usage", .str "quit [0|1]"),
    ("help", .str "exit saratoga")]),
  ("reqtstamp", .obj [("usage", .str "reqtstamp [no|yes]"),
    ("help", .str "request timestamps")]),
  ("rmtran", .obj [("usage", .str "rmtran <peer> <session>"),
    ("help", .str "remove a current transfer")]),
  ("rxwilling", .obj [("usage", .str "rxwilling [on|off|capable]"),
    ("help", .str "current receive status or turn receive on/off/capable")]),
  ("stream", .obj [("usage", .str "stream [yes|no]"),
    ("help", .str "current stream status or can/cannot handle stream")]),
  ("take", .obj [("usage", .str "take [<peer> <filename>]"),
    ("help", .str "get a file from a peer and remove it from peer when successfully transferred")]),
  ("timeout", .obj [("usage", .str "timeout [metadata|request|transfer|status|dataframes] <secs|off>"),
    ("help", .str "timeouts in secs for metadata, request frames, status receipts, transfer completion,
      status sent every dataframes")]),
  ("timestamp", .obj [("usage", .str "timestamp [off|32|64|32_32|64_32|32_y2k]"),
    ("help", .str "timestamp type to send")]),
  ("timezone", .obj [("usage", .str "timezone [utc|local]"),
    ("help", .str "show current or set to use local or universal time")]),
  ("tran", .obj [("usage", .str "tran [get|take|getdir|put|give|putblind|rm|rmdir]"),
    ("help", .str "list current active transfers of specific type or all")]),
  ("txwilling", .obj [("usage", .str "txwilling [on|off|capable]"),
    ("help", .str "show current transfer capability or set on/off/capable")]),
  ("usage", .obj [("usage", .str "usage"),
    ("help", .str "show usage of commands")])]

/-- The object `"frameflags"` (saratoga/saratoga.json:168-175). -/
def doc_frameflags : List (String × Json Int) := [
  ("beacon", .arr [.str "version", .str "frametype", .str "descriptor", .str "stream", .str "txwilling",
      .str "rxwilling", .str "udplite", .str "freespace", .str "freespaced"]),
  ("request", .arr [.str "version", .str "frametype", .str "descriptor", .str "stream", .str "txwilling",
      .str "rxwilling", .str "reqtype", .str "fileordir", .str "udplite"]),
  ("metadata", .arr [.str "version", .str "frametype", .str "descriptor", .str "transfer", .str "progress",
      .str "reliability", .str "csumlen", .str "csumtype"]),
  ("data", .arr [.str "version", .str "frametype", .str "descriptor", .str "transfer", .str "reqtstamp",
      .str "reqstatus", .str "eod"]),
  ("status", .arr [.str "version", .str "frametype", .str "descriptor", .str "reqtstamp", .str "metadatarecvd",
      .str "allholes", .str "reqholes", .str "errcode"])]

/-- The object `"flags"` (saratoga/saratoga.json:176-417). -/
def doc_flags : List (String × Json Int) := [
  ("version", .obj [("frametypes", .arr [.str "beacon", .str "request", .str "metadata", .str "data", .str "status"]),
    ("len", .num 3),
    ("msb", .num 0),
    ("options", .obj [("v0", .num 0),
      ("v1", .num 1)])]),
  ("frametype", .obj [("frametypes", .arr [.str "beacon", .str "request", .str "metadata", .str "data",
      .str "status"]),
    ("len", .num 5),
    ("msb", .num 3),
    ("options", .obj [("beacon", .num 0),
      ("request", .num 1),
      ("metadata", .num 2),
      ("data", .num 3),
      ("status", .num 4)])]),
  ("descriptor", .obj [("frametypes", .arr [.str "beacon", .str "request", .str "metadata", .str "data",
      .str "status"]),
    ("len", .num 2),
    ("msb", .num 8),
    ("options", .obj [("d16", .num 0),
      ("d32", .num 1),
      ("d64", .num 2),
      ("d128", .num 3)])]),
  ("stream", .obj [("frametypes", .arr [.str "beacon", .str "request"]),
    ("len", .num 1),
    ("msb", .num 11),
    ("options", .obj [("no", .num 0),
      ("yes", .num 1)])]),
  ("transfer", .obj [("frametypes", .arr [.str "metadata", .str "data"]),
    ("len", .num 2),
    ("msb", .num 10),
    ("options", .obj [("file", .num 0),
      ("directory", .num 1),
      ("bundle", .num 2),
      ("stream", .num 3)])]),
  ("reqtstamp", .obj [("frametypes", .arr [.str "data", .str "status"]),
    ("len", .num 1),
    ("msb", .num 12),
    ("options", .obj [("no", .num 0),
      ("yes", .num 1)])]),
  ("progress", .obj [("frametypes", .arr [.str "metadata"]),
    ("len", .num 1),
    ("msb", .num 12),
    ("options", .obj [("inprogress", .num 0),
      ("terminated", .num 1)])]),
  ("txwilling", .obj [("frametypes", .arr [.str "beacon", .str "request"]),
    ("len", .num 2),
    ("msb", .num 12),
    ("options", .obj [("no", .num 0),
      ("invalid", .num 1),
      ("capable", .num 2),
      ("yes", .num 3)])]),
  ("metadatarecvd", .obj [("frametypes", .arr [.str "status"]),
    ("len", .num 1),
    ("msb", .num 13),
    ("options", .obj [("yes", .num 0),
      ("no", .num 1)])]),
  ("allholes", .obj [("frametypes", .arr [.str "status"]),
    ("len", .num 1),
    ("msb", .num 14),
    ("options", .obj [("yes", .num 0),
      ("no", .num 1)])]),
  ("reqtype", .obj [("frametypes", .arr [.str "request"]),
    ("len", .num 8),
    ("msb", .num 24),
    ("options", .obj [("noaction", .num 0),
      ("get", .num 1),
      ("put", .num 2),
      ("take", .num 3),
      ("give", .num 4),
      ("delete", .num 5),
      ("getdir", .num 6)])]),
  ("rxwilling", .obj [("frametypes", .arr [.str "beacon", .str "request"]),
    ("len", .num 2),
    ("msb", .num 14),
    ("options", .obj [("no", .num 0),
      ("invalid", .num 1),
      ("capable", .num 2),
      ("yes", .num 3)])]),
  ("reqholes", .obj [("frametypes", .arr [.str "status"]),
    ("len", .num 1),
    ("msb", .num 15),
    ("options", .obj [("requested", .num 0),
      ("voluntarily", .num 1)])]),
  ("reqstatus", .obj [("frametypes", .arr [.str "data"]),
    ("len", .num 1),
    ("msb", .num 15),
    ("options", .obj [("no", .num 0),
      ("yes", .num 1)])]),
  ("udplite", .obj [("frametypes", .arr [.str "beacon", .str "request"]),
    ("len", .num 1),
    ("msb", .num 16),
    ("options", .obj [("no", .num 0),
      ("yes", .num 1)])]),
  ("eod", .obj [("frametypes", .arr [.str "data"]),
    ("len", .num 1),
    ("msb", .num 16),
    ("options", .obj [("no", .num 0),
      ("yes", .num 1)])]),
  ("freespace", .obj [("frametypes", .arr [.str "beacon"]),
    ("len", .num 1),
    ("msb", .num 17),
    ("options", .obj [("no", .num 0),
      ("yes", .num 1)])]),
  ("freespaced", .obj [("frametypes", .arr [.str "beacon"]),
    ("len", .num 2),
    ("msb", .num 18),
    ("options", .obj [("d16", .num 0),
      ("d32", .num 1),
      ("d64", .num 2),
      ("d128", .num 3)])]),
  ("csumlen", .obj [("frametypes", .arr [.str "metadata"]),
    ("len", .num 4),
    ("msb", .num 24),
    ("options", .obj [("none", .num 0),
      ("crc32", .num 1),
      ("invalid2", .num 2),
      ("invalid3", .num 3),
      ("md5", .num 4),
      ("sha1", .num 5)])]),
  ("csumtype", .obj [("frametypes", .arr [.str "metadata"]),
    ("len", .num 4),
    ("msb", .num 28),
    ("options", .obj [("none", .num 0),
      ("crc32", .num 1),
      ("md5", .num 2),
      ("sha1", .num 3)])]),
  ("reliability", .obj [("frametypes", .arr [.str "metadata"]),
    ("len", .num 1),
    ("msb", .num 13),
    ("options", .obj [("udponly", .num 0),
      ("udplite", .num 1)])]),
  ("errcode", .obj [("frametypes", .arr [.str "status"]),
    ("len", .num 8),
    ("msb", .num 24),
    ("options", .obj [("success", .num 0),
      ("unspecified", .num 1),
      ("cantsend", .num 2),
      ("cantreceive", .num 3),
      ("filenotfound", .num 4),
      ("accessdenied", .num 5),
      ("unknownid", .num 6),
      ("didnotdelete", .num 7),
      ("filetobig", .num 8),
      ("badoffset", .num 9),
      ("badpacket", .num 10),
      ("badrequest", .num 11),
      ("internaltimeout", .num 12),
      ("baddataflag", .num 13),
      ("rxnotinterested", .num 14),
      ("fileinuse", .num 15),
      ("metadatarequired", .num 16),
      ("badstatus", .num 17),
      ("rxtimeout", .num 18)])])]

/-- The object `"direntflags"` (saratoga/saratoga.json:418-454). -/
def doc_direntflags : List (String × Json Int) := [
  ("sod", .obj [("len", .num 1),
    ("msb", .num 0),
    ("options", .obj [("sod", .num 1)])]),
  ("property", .obj [("len", .num 2),
    ("msb", .num 6),
    ("options", .obj [("normalfile", .num 0),
      ("normaldirectory", .num 1),
      ("specialfile", .num 2),
      ("specialdirectory", .num 3)])]),
  ("descriptor", .obj [("len", .num 2),
    ("msb", .num 8),
    ("options", .obj [("d16", .num 0),
      ("d32", .num 1),
      ("d64", .num 2),
      ("d128", .num 3)])]),
  ("reserved", .obj [("len", .num 1),
    ("msb", .num 10),
    ("options", .obj [("reserved", .num 0)])])]

/-- The object `"timestamps"` (saratoga/saratoga.json:455-467). -/
def doc_timestamps : List (String × Json Int) := [
  ("len", .num 8),
  ("msb", .num 0),
  ("options", .obj [("localinterp", .num 0),
    ("posix32", .num 1),
    ("posix64", .num 2),
    ("posix32_32", .num 3),
    ("posix64_32", .num 4),
    ("epoch2000_32", .num 5)])]

/-- The whole file (saratoga/saratoga.json:1-468). -/
def shippedDoc : List (String × Json Int) := [
  ("_comment", .str "Refer to Config struct comments in sarflags.go and saratoga.go"),
  ("v4multicast", .str "224.0.0.108"),
  ("v6multicast", .str "ff02::6c"),
  ("udpport", .num 7542),
  ("descriptor", .str "d64"),
  ("csumtype", .str "none"),
  ("freespace", .str "yes"),
  ("txwilling", .str "yes"),
  ("rxwilling", .str "yes"),
  ("stream", .str "no"),
  ("reqtstamp", .str "yes"),
  ("reqstatus", .str "no"),
  ("udplite", .str "no"),
  ("timestamp", .str "posix64"),
  ("timezone", .str "utc"),
  ("sardir", .str "/Users/chas/sardir"),
  ("prompt", .str "saratoga"),
  ("ppad", .num 3),
  ("buffersize", .num 1024),
  ("bcount", .num 3),
  ("timeout", .obj doc_timeout),
  ("commands", .obj doc_commands),
  ("frameflags", .obj doc_frameflags),
  ("flags", .obj doc_flags),
  ("direntflags", .obj doc_direntflags),
  ("timestamps", .obj doc_timestamps)]

end Saratoga
