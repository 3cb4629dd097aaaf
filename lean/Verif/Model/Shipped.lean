import Verif.Model.Flags
/-! # The tables of `saratoga/saratoga.json` as shipped -/
namespace Saratoga

/-- The `"flags"` object (saratoga/saratoga.json:176-417). -/
def shippedFlags : List (String × FlagType 32) := [
  ("version", ⟨3, 0, [("v0", 0), ("v1", 1)]⟩),
  ("frametype", ⟨5, 3, [("beacon", 0), ("request", 1), ("metadata", 2), ("data", 3), ("status", 4)]⟩),
  ("descriptor", ⟨2, 8, [("d16", 0), ("d32", 1), ("d64", 2), ("d128", 3)]⟩),
  ("stream", ⟨1, 11, [("no", 0), ("yes", 1)]⟩),
  ("transfer", ⟨2, 10, [("file", 0), ("directory", 1), ("bundle", 2), ("stream", 3)]⟩),
  ("reqtstamp", ⟨1, 12, [("no", 0), ("yes", 1)]⟩),
  ("progress", ⟨1, 12, [("inprogress", 0), ("terminated", 1)]⟩),
  ("txwilling", ⟨2, 12, [("no", 0), ("invalid", 1), ("capable", 2), ("yes", 3)]⟩),
  ("metadatarecvd", ⟨1, 13, [("yes", 0), ("no", 1)]⟩),
  ("allholes", ⟨1, 14, [("yes", 0), ("no", 1)]⟩),
  ("reqtype", ⟨8, 24, [("noaction", 0), ("get", 1), ("put", 2), ("take", 3), ("give", 4), ("delete", 5), ("getdir", 6)]⟩),
  ("rxwilling", ⟨2, 14, [("no", 0), ("invalid", 1), ("capable", 2), ("yes", 3)]⟩),
  ("reqholes", ⟨1, 15, [("requested", 0), ("voluntarily", 1)]⟩),
  ("reqstatus", ⟨1, 15, [("no", 0), ("yes", 1)]⟩),
  ("udplite", ⟨1, 16, [("no", 0), ("yes", 1)]⟩),
  ("eod", ⟨1, 16, [("no", 0), ("yes", 1)]⟩),
  ("freespace", ⟨1, 17, [("no", 0), ("yes", 1)]⟩),
  ("freespaced", ⟨2, 18, [("d16", 0), ("d32", 1), ("d64", 2), ("d128", 3)]⟩),
  ("csumlen", ⟨4, 24, [("none", 0), ("crc32", 1), ("invalid2", 2), ("invalid3", 3), ("md5", 4), ("sha1", 5)]⟩),
  ("csumtype", ⟨4, 28, [("none", 0), ("crc32", 1), ("md5", 2), ("sha1", 3)]⟩),
  ("reliability", ⟨1, 13, [("udponly", 0), ("udplite", 1)]⟩),
  ("errcode", ⟨8, 24, [("success", 0), ("unspecified", 1), ("cantsend", 2), ("cantreceive", 3), ("filenotfound", 4), ("accessdenied", 5), ("unknownid", 6), ("didnotdelete", 7), ("filetobig", 8), ("badoffset", 9), ("badpacket", 10), ("badrequest", 11), ("internaltimeout", 12), ("baddataflag", 13), ("rxnotinterested", 14), ("fileinuse", 15), ("metadatarequired", 16), ("badstatus", 17), ("rxtimeout", 18)]⟩)]

/-- The `"direntflags"` object (saratoga/saratoga.json:418-454). -/
def shippedDirent : List (String × FlagType 16) := [
  ("sod", ⟨1, 0, [("sod", 1)]⟩),
  ("property", ⟨2, 6, [("normalfile", 0), ("normaldirectory", 1), ("specialfile", 2), ("specialdirectory", 3)]⟩),
  ("descriptor", ⟨2, 8, [("d16", 0), ("d32", 1), ("d64", 2), ("d128", 3)]⟩),
  ("reserved", ⟨1, 10, [("reserved", 0)]⟩)]

/-- The `"timestamps"` object (saratoga/saratoga.json:455-467). -/
def shippedTs : FlagType 8 :=
  ⟨8, 0, [("localinterp", 0), ("posix32", 1), ("posix64", 2), ("posix32_32", 3), ("posix64_32", 4), ("epoch2000_32", 5)]⟩

/-- The `"frameflags"` object (saratoga/saratoga.json:168-175). -/
def shippedFrameflags : List (String × List String) := [
  ("beacon", ["version", "frametype", "descriptor", "stream", "txwilling", "rxwilling", "udplite", "freespace", "freespaced"]),
  ("request", ["version", "frametype", "descriptor", "stream", "txwilling", "rxwilling", "reqtype", "fileordir", "udplite"]),
  ("metadata", ["version", "frametype", "descriptor", "transfer", "progress", "reliability", "csumlen", "csumtype"]),
  ("data", ["version", "frametype", "descriptor", "transfer", "reqtstamp", "reqstatus", "eod"]),
  ("status", ["version", "frametype", "descriptor", "reqtstamp", "metadatarecvd", "allholes", "reqholes", "errcode"])]

/-- All tables as the program has them after reading the shipped configuration (saratoga/saratoga.json:168-467). -/
def shipped : Tables := ⟨shippedFlags, shippedDirent, shippedTs, shippedFrameflags⟩

end Saratoga
