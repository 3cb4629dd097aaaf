{"id": "C01", "title": "Received ranges are recorded exactly", "statement": "After any sequence of Add(start,end) calls starting from an empty Holes value, an offset lies in one of the returned ranges if and only if it lay in [start,end) of some call of the sequence. Calls with end<=start contribute nothing.", "quantifier": "every finite sequence of Add calls with arbitrary integer arguments, every offset, every order in which the unstable sort may leave equal starts", "why_tests_cant": "The merge is a loop that calls itself recursively on a list it is editing in place; the number of histories is unbounded and the sort may order ties freely.", "anchors": ["holes/holes.go: Holes.Add, Holes.optimise, Holes.remove"]}
{"id": "C02", "title": "Recorded ranges are always canonical", "statement": "After any sequence of Add calls the returned list is sorted, every range is non-empty and between any two neighbouring ranges there is at least one missing offset (no overlap, no touching).", "quantifier": "every finite sequence of Add calls, every tie order of the sort", "why_tests_cant": "It is an invariant over unbounded histories; a single merge that the recursion misses breaks it only for specific overlap patterns.", "anchors": ["holes/holes.go: Holes.Add, Holes.optimise"]}
{"id": "C03", "title": "Arrival order and duplication do not matter", "statement": "Two sequences of Add calls that cover the same set of offsets return identical lists. In particular permuting, repeating or re-splitting the received ranges changes nothing.", "quantifier": "every pair of Add histories with the same union, every tie order of the sort in both", "why_tests_cant": "Quantifies over pairs of unbounded histories (all permutations and re-splittings of a transfer).", "anchors": ["holes/holes.go: Holes.Add"]}
{"id": "C04", "title": "Reported holes are exactly the missing data below the highest received offset", "statement": "When all received ranges start at 0 or above, Getholes after any Add history returns a sorted list of non-empty, separated ranges whose union is exactly the set of offsets >= 0 that were not received but lie below some received offset. With nothing received it returns no holes.", "quantifier": "every Add history with non-negative starts, every offset", "why_tests_cant": "The status frame a sender acts on is built from this list; one lost or extra offset in any pattern means lost data or endless resends, and patterns are unbounded.", "anchors": ["holes/holes.go: Holes.Getholes, Holes.Lenholes"]}
{"id": "C05", "title": "A transfer is complete exactly when one range [0,n] remains", "statement": "For n>0, after any Add history the list equals the single entry [0,n] if and only if the received offsets are exactly 0..n-1.", "quantifier": "every Add history and every n > 0", "why_tests_cant": "Completion is an if-and-only-if over all histories; tests only show some complete histories produce one entry.", "anchors": ["holes/holes.go: Holes.Add (comment lines 10-17)"]}
{"id": "C06", "title": "Adding a range never alters a list the caller already holds", "statement": "If a caller keeps the list returned by an earlier Add and calls Add again on it, the kept list still shows the earlier ranges. (Expected by a user of a value type; the code shares the backing array.)", "quantifier": "every list, capacity and later Add", "why_tests_cant": "Depends on spare capacity of the backing array, i.e. on the allocation history, not on the visible contents.", "anchors": ["holes/holes.go: Holes.Add line 78, sort.Slice line 80, Holes.remove"]}
{"id": "C07", "title": "Reading a header field after setting it returns what was set", "statement": "For every header word, every field of the flag tables and every option of that field, Set followed by Get on the same field returns the option's number, and GetStr returns an option name with that number (the same name, because numbers are distinct). The same holds for the directory entry flags (GetD/SetD) and the timestamp flag (GetT/SetT).", "quantifier": "every 32/16/8 bit header value, every field position and length that fits the word, every option that fits the length", "why_tests_cant": "2^32 headers times every field layout a configuration file may define.", "anchors": ["sarflags/sarflags.go: Get, Set, GetStr, GetD, SetD, GetDStr, GetT, SetT, GetTStr"]}
{"id": "C08", "title": "Setting one header field never disturbs another", "statement": "For every header word and any two fields with disjoint bit ranges, Set on one leaves Get of the other unchanged; Set leaves every bit outside its own field unchanged.", "quantifier": "every header value, every pair of disjoint fields, every option that fits", "why_tests_cant": "All header words times all pairs of layouts.", "anchors": ["sarflags/sarflags.go: Get, Set, SetD, SetT"]}
{"id": "C09", "title": "The shipped flag tables are consistent", "statement": "In saratoga.json every field fits its word, all option numbers of a field are distinct and fit the field, and the fields of one frame type never overlap, so C07 and C08 apply to every frame the program builds.", "quantifier": "every field, option and pair of fields of every frame type in the shipped configuration", "why_tests_cant": "The tables are data: the code never checks them, and one wrong msb silently corrupts a neighbouring field only for some values.", "anchors": ["saratoga/saratoga.json", "sarflags/sarflags.go: Flags, DirentFlags, TimeStamps, Frameflags"]}
{"id": "C10", "title": "Field lookup does not depend on map iteration order", "statement": "GetStr/GetDStr/GetTStr/Name return the same name whatever order Go happens to iterate the option map in, and setting several fields from a map (SetFlags) gives the same header in every order.", "quantifier": "every header, every permutation of the option map and of the flags map", "why_tests_cant": "Go randomises map order on every run; a test observes one order at a time.", "anchors": ["sarflags/sarflags.go: GetStr, Name, NameD, NameT, GetDStr, GetTStr, SetFlags"]}
{"id": "C11", "title": "A frame built from flag text carries exactly those flags", "statement": "When New succeeds for a data, request, status, metadata or beacon frame, the header reads back version v1 and the right frame type unless the text itself overrides them, each name=value of the text reads back (the last one wins on repeats), and no other field is set.", "quantifier": "every flag string, in particular every list of legal name=value pairs in any order", "why_tests_cant": "All flag strings, orders and repetitions.", "anchors": ["data/data.go: New", "request/request.go: New", "status/status.go: New", "metadata/metadata.go: New", "beacon/beacon.go: New"]}
{"id": "C12", "title": "Malformed flag text is reported as an error, not a crash", "statement": "Calling New with arbitrary flag text returns an error value when the text is not valid. (Expected from the signature; in the code an unknown option terminates the process and a name without '=' panics.)", "quantifier": "every flag string", "why_tests_cant": "Needs a classification of all strings into ok / error / process exit / panic.", "anchors": ["sarflags/sarflags.go: Set", "data/data.go: New", "request/request.go: New", "status/status.go: New", "beacon/beacon.go: New"]}
{"id": "C13", "title": "FlagValue, AddFlag and ReplaceFlag agree", "statement": "For any well formed flag text, after ReplaceFlag(flags,name,value) with a valid pair FlagValue reports value for name and the previous value for every other name; AddFlag appends exactly one pair; replacing twice equals replacing once with the last value.", "quantifier": "every well formed flag text, every valid pair", "why_tests_cant": "Laws over all strings, including names that are prefixes of each other and repeated names.", "anchors": ["sarflags/sarflags.go: AddFlag, FlagValue, ReplaceFlag, AddFlagD, ReplaceFlagD"]}
{"id": "C14", "title": "Flags derived from the user's global settings are always accepted", "statement": "For every setting of the global flags that passes validation and every frame type, Setglobal yields flag text that New of that frame type accepts without error, exit or panic, and the resulting header shows the user's settings.", "quantifier": "every valid assignment of the global flags, every frame type, every map order", "why_tests_cant": "Thousands of flag assignments times frame types; a failure terminates the program.", "anchors": ["sarflags/sarflags.go: Setglobal", "beacon/beacon.go: New", "data/data.go: New", "request/request.go: New", "status/status.go: New"]}
{"id": "C15", "title": "A configuration that loads is valid and independent of JSON object order", "statement": "If ReadConfig succeeds then every global flag holds an option of its field, and reading the same JSON objects with members in any order gives the same tables and settings or the same failure.", "quantifier": "every JSON document, every permutation of its objects", "why_tests_cant": "Go map iteration order is random; configurations are unbounded.", "anchors": ["sarflags/sarflags.go: Cliflags.ReadConfig, Valid"]}
{"id": "C16", "title": "Copying the command line settings copies all of them", "statement": "CopyCliflags returns settings equal to the source in every field and later changes to one side's flag map do not show on the other. (The code copies the IPv4 multicast address into the IPv6 field and drops the beacon count.)", "quantifier": "every settings value", "why_tests_cant": "Two wrong fields are visible only for inputs where they differ.", "anchors": ["sarflags/sarflags.go: Cliflags.CopyCliflags"]}
{"id": "C17", "title": "Timestamps survive the wire", "statement": "For every timestamp type except local interpretation and every time that New accepts, Get applied to the bytes of Put gives back the same seconds and nanoseconds, and the seconds are those of the given time (minus the year 2000 epoch for epoch2000_32).", "quantifier": "every type and every time representable in the type", "why_tests_cant": "2^64 times and all types; off by one byte layouts differ only for large values.", "anchors": ["timestamp/timestamp.go: New, Put, Get, Secs"]}
{"id": "C18", "title": "Times that do not fit a 32 bit timestamp are rejected", "statement": "New with posix32, posix32_32 or epoch2000_32 returns an error for any time before the epoch of the type or beyond 2^32-1 seconds after it. (posix32_32 accepts times within one second before 1970 with a wrong value.)", "quantifier": "every time value", "why_tests_cant": "Boundary behaviour over all 64 bit times, signed to unsigned conversion included.", "anchors": ["timestamp/timestamp.go: New"]}
{"id": "C19", "title": "Every timestamp that can be written can be read back", "statement": "Put of any timestamp created by New is accepted by Get. (Local interpretation timestamps are written but Get always answers with an error.)", "quantifier": "every timestamp type of the table and every time", "why_tests_cant": "Universal over types and times.", "anchors": ["timestamp/timestamp.go: Put, Get"]}
{"id": "C20", "title": "Data frames survive the wire", "statement": "Decode of Encode of a data frame with a 16, 32 or 64 bit descriptor gives back the same header, session, offset, timestamp and payload, provided the offset fits the descriptor and a requested timestamp is of a readable type.", "quantifier": "every header, session, offset, payload of any length and timestamp", "why_tests_cant": "All payloads and offsets; layouts shift by descriptor and timestamp.", "anchors": ["data/data.go: Encode, Decode"]}
{"id": "C21", "title": "Request frames survive the wire", "statement": "Decode of Encode of a request frame gives back header, session, file name and authentication bytes whenever the file name has no NUL byte. (The code only achieves this for ASCII file names; other names are garbled or crash the receiver.)", "quantifier": "every header, session, file name without NUL and authentication bytes", "why_tests_cant": "All byte strings as file names; the failure depends on single bytes >= 0x80.", "anchors": ["request/request.go: Encode, Decode"]}
{"id": "C22", "title": "Directory entries survive the wire", "statement": "Decode of Encode of a directory entry gives back flags, size, times to the second and path for every size that fits the chosen descriptor and every path without NUL. (64 bit descriptors refuse sizes above 2^32-1 and non ASCII paths are garbled.)", "quantifier": "every flags word, size, pair of times and path", "why_tests_cant": "All sizes and byte strings.", "anchors": ["dirent/dirent.go: Encode, Decode"]}
{"id": "C23", "title": "Metadata frames survive the wire", "statement": "Decode of Encode of a metadata frame gives back header, session, checksum and directory entry whenever the checksum length agrees with the header's csumlen and the directory entry can be encoded.", "quantifier": "every header, session, checksum, directory entry", "why_tests_cant": "Variable length checksum followed by variable length entry; all combinations.", "anchors": ["metadata/metadata.go: Encode, Decode"]}
{"id": "C24", "title": "Encoding metadata never silently drops the directory entry", "statement": "Encode of a metadata frame either contains the encoded directory entry or reports an error. (The code ignores the entry's encoding error and emits a frame that stops after the checksum.)", "quantifier": "every metadata value", "why_tests_cant": "Only specific sizes and descriptors trigger it.", "anchors": ["metadata/metadata.go: Encode line 257-265", "dirent/dirent.go: Encode"]}
{"id": "C25", "title": "Status frames survive the wire", "statement": "Decode of Encode of a status frame gives back header, session, timestamp, progress, in-response-to and the list of holes for every descriptor. (True without timestamps; with reqtstamp=yes the encoder never writes the timestamp and the receiver misreads the frame.)", "quantifier": "every header, session, offsets and hole list of any length", "why_tests_cant": "Unbounded hole lists; layout depends on header bits.", "anchors": ["status/status.go: Encode, Decode"]}
{"id": "C26", "title": "Beacon frames survive the wire", "statement": "Decode of Encode of a beacon gives back header, free space and endpoint id whenever the free space fits the advertised descriptor.", "quantifier": "every header, free space and endpoint id", "why_tests_cant": "All endpoint ids and sizes.", "anchors": ["beacon/beacon.go: Encode, Decode"]}
{"id": "C27", "title": "Encoders never silently truncate numbers", "statement": "If Encode of a data, status, beacon or directory frame succeeds, the numbers on the wire equal the numbers in the frame. (The code truncates to the descriptor width; the exact value on the wire is the number modulo 2^16, 2^32 or 2^64.)", "quantifier": "every frame value", "why_tests_cant": "Silent truncation appears only above the descriptor's range.", "anchors": ["data/data.go: Encode", "status/status.go: Encode", "beacon/beacon.go: Encode", "dirent/dirent.go: Encode"]}
{"id": "C28", "title": "Decoding a data frame never crashes", "statement": "Decode of a data frame either succeeds or returns an error for every byte string. (The code panics or exits on some short frames or unknown timestamp types; the exact set is characterised.)", "quantifier": "every byte string of any length", "why_tests_cant": "All byte strings; crash conditions depend on header bits and length together.", "anchors": ["data/data.go: Decode", "timestamp/timestamp.go: Get"]}
{"id": "C29", "title": "Decoding a request frame never crashes", "statement": "Decode of a request frame either succeeds or returns an error for every byte string. (Exact panic set: the file name read with each byte >= 0x80 counted twice, plus 9, exceeds the frame length.)", "quantifier": "every byte string of any length", "why_tests_cant": "All byte strings.", "anchors": ["request/request.go: Decode"]}
{"id": "C30", "title": "Decoding metadata and directory entries never crashes", "statement": "Decode of a metadata frame or directory entry either succeeds or returns an error for every byte string. (Exact panic sets are characterised.)", "quantifier": "every byte string of any length", "why_tests_cant": "All byte strings.", "anchors": ["metadata/metadata.go: Decode", "dirent/dirent.go: Decode"]}
{"id": "C31", "title": "Decoding a status frame never crashes", "statement": "Decode of a status frame either succeeds or returns an error for every byte string. (Exact panic/exit set is characterised.)", "quantifier": "every byte string of any length", "why_tests_cant": "All byte strings.", "anchors": ["status/status.go: Decode"]}
{"id": "C32", "title": "Decoding a beacon never crashes", "statement": "Decode of a beacon frame either succeeds or returns an error for every byte string of at least 8 bytes, the least the listener passes on. (Exact panic set is characterised.)", "quantifier": "every byte string of any length", "why_tests_cant": "All byte strings.", "anchors": ["beacon/beacon.go: Decode"]}
{"id": "C33", "title": "What Decode returns depends only on the frame", "statement": "Decoding the same bytes into a frame variable gives the same result whatever the variable held before. (Request names and status holes are appended to what is already there.)", "quantifier": "every previous value of the variable, every byte string", "why_tests_cant": "Relational property over all prior states.", "anchors": ["request/request.go: Decode line 131", "status/status.go: Decode line 316", "data/data.go: Decode", "beacon/beacon.go: Decode"]}
{"id": "C34", "title": "A beacon's free space field always fits the advertised size", "statement": "When New builds a beacon advertising free space, the descriptor flag it chooses (16, 32 or 64 bit) can hold the number of kilobytes it stores, so the peer learns the exact value.", "quantifier": "every file system size and block size, every flag text without an explicit freespaced", "why_tests_cant": "Boundary values at 2^16 and 2^32 and wrap around of 64 bit multiplication.", "anchors": ["beacon/beacon.go: New, Encode, Decode"]}
{"id": "C35", "title": "The metadata descriptor always fits the file size", "statement": "The descriptor that metadata construction picks for a file can represent every offset of the file, and the checksum length announced in the header equals the number of checksum bytes carried.", "quantifier": "every file size, every checksum type", "why_tests_cant": "Boundary values over 64 bit sizes.", "anchors": ["metadata/metadata.go: statfile, New", "fileio/checksum.go: Checksum"]}
{"id": "C36", "title": "One entry per peer, holding its latest beacon", "statement": "After any sequence of received beacons the peer list has at most one entry per address, in order of first appearance, and each entry shows the end point, descriptor, free space and willingness of the last beacon from that address and keeps the time of the first.", "quantifier": "every sequence of beacons from any addresses", "why_tests_cant": "Invariant plus refinement over unbounded histories.", "anchors": ["beacon/beacon.go: NewPeer, Peers"]}
{"id": "C37", "title": "NewPeer reports exactly the beacons that bring news", "statement": "NewPeer returns true if and only if the peer list changed: first beacon from an address or a beacon that differs from the stored information; an identical beacon returns false and changes nothing.", "quantifier": "every peer list and beacon", "why_tests_cant": "All pairs of table and beacon.", "anchors": ["beacon/beacon.go: NewPeer"]}
{"id": "C38", "title": "Concurrent beacons do not create duplicate peers", "statement": "If two goroutines process beacons of the same new address at the same time, the table still has one entry for it. (The scan happens outside the lock, so interleavings exist that create two.)", "quantifier": "every interleaving of concurrent NewPeer calls", "why_tests_cant": "Depends on the schedule.", "anchors": ["beacon/beacon.go: NewPeer lines 350-384, Pmu"]}
{"id": "C39", "title": "The answer to a request follows a fixed decision table", "statement": "For every received request with readable flags, the responder's status code is the first that applies of: wrong version, udplite or stream -> badrequest; not willing -> cantreceive / cantsend; missing file for get, getdir, take, delete -> filenotfound; existing file for put, give -> fileinuse; failed removal -> didnotdelete; unknown type -> badrequest; and only requests passing all checks go on to start a transfer.", "quantifier": "every header, file name and file system state", "why_tests_cant": "Header space times file system states.", "anchors": ["trans/trans.go: AddRxTran"]}
{"id": "C40", "title": "A request from a peer never terminates the receiver", "statement": "Receiving any request frame leaves the process running. (With the shipped tables every request terminates it: the handler looks up a flag named request that is not in the tables.)", "quantifier": "every request frame and every state", "why_tests_cant": "Universal over requests; the tests in the repository never call this path.", "anchors": ["trans/trans.go: AddRxTran line 54, line 210", "sarflags/sarflags.go: GetStr"]}
{"id": "C41", "title": "The main loop never blocks on its own reply queue", "statement": "When the main loop handles a request it can always go on to handle the next frame. (The reply is sent on an unbuffered channel whose only reader is the main loop itself, so any reply blocks it forever.)", "quantifier": "every schedule of listeners and main loop", "why_tests_cant": "A deadlock that depends on schedule and request.", "anchors": ["saratoga/saratoga.go: main select loop", "trans/trans.go: AddRxTran (tx <- ...)"]}
{"id": "C42", "title": "No datagram can terminate the listener", "statement": "For every datagram the listener either drops it, queues a packet or queues a status reply. (The code exits or panics on a precisely characterised set of datagrams.)", "quantifier": "every byte string and MTU", "why_tests_cant": "All datagrams.", "anchors": ["saratoga/saratoga.go: listen"]}
{"id": "C43", "title": "Frames reach the main loop in order and unaltered", "statement": "In every schedule, the packets the main loop has handled from one socket are, in order, exactly the decoded frames of a prefix of the datagrams read from that socket; nothing is duplicated, reordered or invented.", "quantifier": "every schedule of two listeners and the main loop, every datagram history", "why_tests_cant": "Unbounded interleavings.", "anchors": ["saratoga/saratoga.go: listen, main"]}
{"id": "C44", "title": "Replies queued for transmission are transmitted", "statement": "Every status frame the program queues in answer to a frame is put on the wire. (The main loop takes the reply off the queue and only prints it.)", "quantifier": "every execution", "why_tests_cant": "Absence of an effect over all executions.", "anchors": ["saratoga/saratoga.go: main select loop, case tx"]}
{"id": "C45", "title": "Session identifiers are not reused", "statement": "The identifiers handed out by the session generator are pairwise different until the 32 bit counter is exhausted, for any interleaving of callers.", "quantifier": "every number of calls below the wrap and every starting process id", "why_tests_cant": "Up to 2^32 calls.", "anchors": ["sarwin/sarwin.go: newsession"]}
{"id": "C46", "title": "At most one transfer per file and peer", "statement": "Starting transfers one after another never puts two transfers of the same file with the same peer in the transfer table.", "quantifier": "every sequence of transfer commands", "why_tests_cant": "Invariant over unbounded histories (and false under concurrent commands).", "anchors": ["sarwin/sarwin.go: NewInitiator, Transfers"]}
{"id": "C47", "title": "Removing a transfer removes that transfer", "statement": "Remove on a transfer that is in the table deletes it and no other; on one that is not, it reports an error and changes nothing. (The code always deletes the last entry.)", "quantifier": "every table and every transfer", "why_tests_cant": "Correct whenever the victim happens to be last, so short tests pass.", "anchors": ["sarwin/sarwin.go: Transfer.Remove"]}
{"id": "C48", "title": "Status frames fit the network and share out the holes", "statement": "When a status report needs several frames, each frame fits the MTU and together they carry every hole exactly once in order. (The code puts every hole in every frame.)", "quantifier": "every hole list, MTU, descriptor and timestamp choice", "why_tests_cant": "Unbounded hole lists.", "anchors": ["sarwin/sarwin.go: WriteStatus, stpaylen"]}
{"id": "C49", "title": "The computed number of holes per frame fits the MTU", "statement": "The maximum number of holes the program computes for a status frame never makes the frame larger than the MTU allows, and one more hole would exceed the computed budget.", "quantifier": "every MTU, descriptor and timestamp choice", "why_tests_cant": "All integer MTUs and remainders.", "anchors": ["sarwin/sarwin.go: stpaylen"]}
{"id": "C50", "title": "Settings commands keep the settings usable", "statement": "After any sequence of settings commands with any arguments every global flag still holds a legal option, so later frames can be built. (False for txwilling, which stores on/off; true for all other commands.)", "quantifier": "every sequence of command lines", "why_tests_cant": "Unbounded command histories; the damage appears only when a later frame is built.", "anchors": ["sarwin/sarwin.go: cmdChecksum, cmdDescriptor, cmdFreespace, cmdReqtstamp, cmdRxwilling, cmdTxwilling, cmdStream"]}
{"id": "C51", "title": "Queries change nothing and settings change one thing", "statement": "A settings command without argument leaves all settings as they were; with an argument it changes only the setting it names; an invalid argument changes nothing.", "quantifier": "every settings state and every argument list", "why_tests_cant": "All states and argument lists.", "anchors": ["sarwin/sarwin.go: cmd* handlers"]}
{"id": "C52", "title": "Timers stay sensible", "statement": "After any sequence of timeout, interval and beacon count commands the timers are non negative and the data counter is positive once the configuration's were.", "quantifier": "every command history", "why_tests_cant": "Unbounded histories and arbitrary argument text.", "anchors": ["sarwin/sarwin.go: cmdTimeout, cmdInterval, cmdBcount"]}
{"id": "C53", "title": "put, give and delete commands finish", "statement": "A transfer command ends with success or an error. (The command waits on a nil channel and never ends.)", "quantifier": "every transfer and schedule", "why_tests_cant": "A liveness failure; a test would just hang.", "anchors": ["sarwin/sarwin.go: Transfer.Do"]}
{"id": "C54", "title": "Typing any line at the prompt never crashes the program", "statement": "Running any command line prints something or starts a command. (A line of blanks panics.)", "quantifier": "every input line", "why_tests_cant": "All strings.", "anchors": ["sarwin/sarwin.go: Run"]}
{"id": "C55", "title": "Receiving a file never overwrites an existing one", "statement": "Opening the local file for a get or take fails if the file already exists and otherwise leaves all existing files as they were. (The existence check looks at the wrong path, so the file is truncated.)", "quantifier": "every file system state, directory setting and file name", "why_tests_cant": "Depends on the file system contents; data loss.", "anchors": ["fileio/fileio.go: FileExists, FileOpen"]}
{"id": "C56", "title": "What was written at a position is read back", "statement": "After FileWrite of bytes at a position, FileRead of that range returns them; bytes outside the range are unchanged and a gap up to the position reads as zero. Positions of 2^63 and above are refused without effect.", "quantifier": "every file content, position, data", "why_tests_cant": "All contents and positions.", "anchors": ["fileio/fileio.go: FileSeek, FileRead, FileWrite"]}
{"id": "C57", "title": "A file is rebuilt from its pieces in any arrival order", "statement": "Writing the pieces of a file at their offsets, in any order and with any repetition, leaves the file's content once the recorded ranges are the single range [0,size].", "quantifier": "every content, every cutting into pieces, every arrival order with repeats", "why_tests_cant": "All permutations of unbounded pieces; ties the range bookkeeping to the stored bytes.", "anchors": ["fileio/fileio.go: FileWrite", "holes/holes.go: Holes.Add"]}
{"id": "C58", "title": "Peers cannot touch files outside the shared directory", "statement": "Every path opened, created or removed on behalf of a peer lies below the configured directory. (File names containing .. are not refused.)", "quantifier": "every file name and directory", "why_tests_cant": "All path strings.", "anchors": ["fileio/fileio.go: FileExists, FileOpen, FileRm", "trans/trans.go: AddRxTran"]}
{"id": "C59", "title": "Removing an address from a list removes all its copies and nothing else", "statement": "RemoveUDPAddrValue returns the list without any entry equal to the given address, in the same order.", "quantifier": "every list and address", "why_tests_cant": "Index arithmetic while deleting in a loop with recursion; fails only for adjacent duplicates in wrong versions.", "anchors": ["sarnet/sarnet.go: RemoveUDPAddrValue, removeUDPAddrIndex"]}
{"id": "C60", "title": "Addresses are classified exactly by their separators", "statement": "UDPAddress treats text with three dots as IPv4 and bracketed IPv6 otherwise when it has two or more colons, and refuses all other text; no text is accepted as both.", "quantifier": "every string", "why_tests_cant": "All strings.", "anchors": ["sarnet/sarnet.go: UDPAddress, isIPv4, isIPv6"]}
{"id": "C61", "title": "A beacon teaches the peer the sender's settings", "statement": "For all valid global settings and any endpoint id, building a beacon from the settings, encoding it, and having another node receive it makes that node's peer table show the sender's descriptor, willingness, endpoint and free space.", "quantifier": "every valid settings value, endpoint id, free space and receiver state", "why_tests_cant": "End to end over all settings and states.", "anchors": ["sarflags/sarflags.go: Setglobal", "beacon/beacon.go: New, Encode, Decode, NewPeer", "saratoga/saratoga.go: listen"]}
{"id": "C62", "title": "Frames have the documented byte layout", "statement": "A successfully encoded data, request, metadata, directory, status or beacon frame consists of exactly the documented parts in the documented order: header word, session, timestamp if requested, numbers of the descriptor's width, then names, checksums or payload, with all numbers big endian and nothing in between.", "quantifier": "every frame value that Encode accepts", "why_tests_cant": "Another implementation must be able to read every frame; a round trip test through the same code passes for any self-consistent layout, and examples cover only some descriptor widths and lengths.", "anchors": ["data/data.go Encode", "request/request.go Encode", "metadata/metadata.go Encode", "dirent/dirent.go Encode", "status/status.go Encode", "beacon/beacon.go Encode"]}
{"id": "C63", "title": "A local file that exists can be opened for sending", "statement": "Opening a file of the shared directory for put or give succeeds when the file exists and the operating system allows it. (The existence check puts the directory in front twice, so it fails.)", "quantifier": "every file system state, directory setting and file name", "why_tests_cant": "Depends on all directory layouts.", "anchors": ["fileio/fileio.go: FileOpen, FileExists", "fileio/checksum.go: Checksum"]}
{"id": "C64", "title": "Deleting an open file removes that file", "statement": "FileDelete of an open file removes exactly that file; FileRm removes exactly the named file or reports an error and changes nothing. (FileDelete puts the directory in front of a name that already has it.)", "quantifier": "every file system state, directory setting and open file", "why_tests_cant": "Depends on all directory layouts.", "anchors": ["fileio/fileio.go: FileRm, FileDelete"]}
{"id": "C65", "title": "Handling a delivered frame never ends the process", "statement": "When the main loop takes a frame that a listener accepted, the process goes on; no accepted frame makes the main loop exit or panic.", "quantifier": "for all executions, all reachable states, all accepted frames", "why_tests_cant": "The frames that kill are particular header values (an unnamed checksum type) and one whole frame type; showing that no other accepted frame kills needs all of them.", "anchors": ["saratoga/saratoga.go:612-668", "metadata/metadata.go:308-316", "trans/trans.go:51-60"]}
{"id": "C66", "title": "The peer table is the sum of the beacons received", "statement": "In every state of every execution the peer table has one entry per address from which a beacon was handled, in order of first hearing, showing the last beacon of that address, and nothing else changes the table.", "quantifier": "for all executions of listeners and main loop, any interleaving, any number of datagrams", "why_tests_cant": "It quantifies over every interleaving of two listeners and the main loop and over every history of datagrams.", "anchors": ["saratoga/saratoga.go:612-668", "beacon/beacon.go:344-385"]}
{"id": "C67", "title": "Open transfers have different session numbers", "statement": "Transfers in the initiator's table have pairwise different session numbers as long as no more than 2^32 - pid transfers have been started.", "quantifier": "every history of starting and removing transfers, every process number", "why_tests_cant": "Needs histories of up to 2^32 starts mixed with removals.", "anchors": ["sarwin/sarwin.go: NewInitiator, newsession, Transfers"]}
{"id": "C68", "title": "rmtran removes the transfer it names", "statement": "rmtran with an address and session deletes exactly the transfer with this remote address and session, and changes nothing if there is none. (The code deletes the last transfer, and panics on a transfer whose dial failed.)", "quantifier": "every table and every argument text", "why_tests_cant": "Right whenever the named transfer happens to be the last.", "anchors": ["sarwin/sarwin.go: cmdRmtran, Match, Transfer.Remove"]}
{"id": "C69", "title": "A request that can be served gets a transfer", "statement": "NewResponder adds one transfer with the session, peer and flags of the request, and refuses duplicates. (No input makes the code add a transfer: it ends the process or the flag text it builds is refused by DirEnt.New.)", "quantifier": "every request header, file, peer and flag table", "why_tests_cant": "A claim that no input at all succeeds.", "anchors": ["sarwin/sarwin.go: NewResponder", "dirent/dirent.go: DirEnt.New"]}
{"id": "C70", "title": "Metadata received for a transfer is recorded", "statement": "After metadata is handed to a transfer, the transfer in the table has the checksum, directory entry and a buffer of the announced size; a buffer that exists keeps its bytes. (Lookup returns a pointer to a copy, so the table is not changed.)", "quantifier": "every table, transfer and metadata frame", "why_tests_cant": "Every entry, size and sequence of metadata frames; the copy is invisible in the result code.", "anchors": ["sarwin/sarwin.go: Transfer.Change, Lookup"]}
{"id": "C71", "title": "A peer that cannot be reached does not disturb other transfers", "statement": "After a failed dial other transfers stay in the table and new ones can be started. (The code keeps the dead transfer, refuses all new ones and deletes the last transfer on each attempt.)", "quantifier": "every history and table", "why_tests_cant": "Needs a failing network and the state left behind by it.", "anchors": ["sarwin/sarwin.go: NewInitiator, Transfer.Remove"]}
{"id": "C72", "title": "What is typed after the prompt is what runs", "statement": "When the operator types a line after the prompt and presses enter, the words executed are the words typed, whatever the configured prompt is.", "quantifier": "every prompt text, every typed line", "why_tests_cant": "Tests use the shipped prompt; the claim is about every prompt text the settings accept and every line.", "anchors": ["sarwin/sarwin.go: GetLine", "sarwin/sarwin.go: prompt"]}
{"id": "C73", "title": "Listing a command's transfers shows those it started", "statement": "A transfer command given without arguments shows exactly the transfers of the table that were started with that command, and says that there is none only if there is none.", "quantifier": "every transfer command, every table of transfers", "why_tests_cant": "The table can hold any number of transfers of any type in any order; a test fixes one table.", "anchors": ["sarwin/sarwin.go: Info", "sarwin/sarwin.go: cmdTake", "sarwin/sarwin.go: cmdGive", "sarwin/sarwin.go: cmdDelete", "sarwin/sarwin.go: cmdTran"]}
{"id": "C74", "title": "A transfer command with a bad address says so", "statement": "A transfer command whose address argument is not an address tells the operator, starts nothing, and says so only then.", "quantifier": "every transfer command, every address text, every file name, every table", "why_tests_cant": "Address texts are unbounded and the commands are many; the claim relates all of them to what is printed.", "anchors": ["sarwin/sarwin.go: cmdGet", "sarwin/sarwin.go: cmdGive"]}
{"id": "C75", "title": "A frame made from a header word carries that header and the given information", "statement": "Make of a data, status, beacon, metadata or request frame gives a frame whose header is the given word with version 1 and the right type, and whose other fields are those of the information given. (Request.Make always panics, MetaData.Make ignores the file name, Status.Make keeps old holes.)", "quantifier": "every header word, every information record, every previous content of the variable", "why_tests_cant": "All 2^32 header words and unbounded payloads; no test calls Make.", "anchors": ["data/data.go: Make", "status/status.go: Make", "beacon/beacon.go: Make", "metadata/metadata.go: Make", "request/request.go: Make"]}
{"id": "C76", "title": "New takes everything it is given", "statement": "A frame built by New that says it has a timestamp has the time of its building, and a request carries the authentication bytes it was built with. (New copies them into an empty slice, so they are lost.)", "quantifier": "every flag text, clock reading and information record", "why_tests_cant": "Flag texts are unbounded; the order of flags decides which timestamp wins.", "anchors": ["data/data.go: New", "status/status.go: New", "request/request.go: New"]}
{"id": "C77", "title": "Printing a frame never ends the process", "statement": "Print and ShortPrint return for every frame. (A field number without a name ends the process; the exact conditions are proved; printing a request always ends it.)", "quantifier": "every frame of every type", "why_tests_cant": "Header words are 2^32 and each has several fields with partially named numbers.", "anchors": ["data/data.go: Print", "status/status.go: Print", "beacon/beacon.go: Print", "request/request.go: Print", "metadata/metadata.go: Print", "dirent/dirent.go: Print"]}
{"id": "C78", "title": "Every setting comes from the member of its name", "statement": "When ReadConfig returns, every setting is what the member of its name in the file says (empty or zero without one), the tables hold exactly the fields of the file, the commands those of the file, and the working directory is the environment variable SARDIR when that is set.", "quantifier": "every JSON document with distinct names, every environment, every iteration order", "why_tests_cant": "Documents are unbounded trees; a reader that mixes up two names shows only when both differ.", "anchors": ["sarflags/sarflags.go: ReadConfig"]}
{"id": "C79", "title": "A configuration file of the wrong shape is reported, not fatal", "statement": "ReadConfig returns an error for a file whose members have other types than expected. (The code panics instead; exactly when is proved.)", "quantifier": "every JSON document", "why_tests_cant": "Every member at every depth can have a wrong type; tests try a few.", "anchors": ["sarflags/sarflags.go: ReadConfig"]}
{"id": "C80", "title": "The shipped configuration loads in every order", "statement": "Whatever order the maps are iterated in and whatever the timestamp table held before, reading the shipped saratoga.json succeeds and gives the shipped settings and tables.", "quantifier": "every permutation at every level of the document, every environment value, every earlier timestamp table", "why_tests_cant": "Go randomises map iteration; the number of orders of this file is astronomically large.", "anchors": ["sarflags/sarflags.go: ReadConfig", "saratoga/saratoga.json"]}
{"id": "C81", "title": "The fields of a loaded configuration fit the header", "statement": "After a successful ReadConfig every field of the flag table lies within the 32-bit header. (Not checked by the code; counterexample. What is guaranteed is that each flag in use has its option in the table.)", "quantifier": "every JSON document", "why_tests_cant": "A file with a wide field loads without complaint and only corrupts frames later.", "anchors": ["sarflags/sarflags.go: ReadConfig", "sarflags/sarflags.go: Set"]}
{"id": "C82", "title": "A beacon command sends the configured number of beacons at the configured interval", "statement": "When the disk, the network and the settings are in order, `beacon <word>` puts exactly bcount frames on the wire to the address the word means, with a pause of interval seconds after each, and a Saratoga program that receives one lists the sender as a peer with the properties set here. (The pause fails for intervals whose nanoseconds overflow 64 bits; counterexample.)", "quantifier": "every legal setting, every word, every earlier state of the command, every answer of resolver and dialler", "why_tests_cant": "Count, interval, address and settings combine without limit; the overflow needs an interval no test uses.", "anchors": ["sarwin/sarwin.go: cmdBeacon", "sarwin/sarwin.go: sendbeacons"]}
{"id": "C83", "title": "The listing of beacon shows what is being sent", "statement": "`beacon` without arguments lists multicast and hosts exactly as turned on and not turned off since. (`beacon off` does not clear the multicast marks and hosts are never recorded; counterexample, and what is listed is proved exactly.)", "quantifier": "every history of beacon commands", "why_tests_cant": "It is a property of histories of any length, not of one command.", "anchors": ["sarwin/sarwin.go: cmdBeacon"]}
{"id": "C84", "title": "Each address on a beacon command gets its beacons", "statement": "`beacon a b c ...` sends the configured number of beacons to each of the addresses given, and `beacon off ...` sends none. (The first address of several is skipped; counterexample, the rest is proved.)", "quantifier": "every list of words, every resolver", "why_tests_cant": "Lists of addresses have any length and may mix good and bad ones.", "anchors": ["sarwin/sarwin.go: cmdBeacon"]}
{"id": "C85", "title": "A beacon command always comes back", "statement": "While the settings are legal a beacon command with any words returns, whatever disk and network answer, and sends at most bcount frames per word.", "quantifier": "every list of words, every state, every failure of disk, resolver, dialler and write", "why_tests_cant": "Failures can strike at any call in any combination.", "anchors": ["sarwin/sarwin.go: cmdBeacon", "sarwin/sarwin.go: sendbeacons", "beacon/beacon.go: New"]}
{"id": "C86", "title": "A count of zero means one beacon and an interval of zero a single one", "statement": "As the comments and the answer of `interval` say, count 0 is the same as 1 and interval 0 sends a single beacon. (Neither holds; counterexample. Proved: a beacon is sent exactly if the count is not zero.)", "quantifier": "every legal setting, every word", "why_tests_cant": "Boundary values of two settings interact with the sending loop.", "anchors": ["sarwin/sarwin.go: sendbeacons", "sarwin/sarwin.go: cmdInterval"]}
{"id": "C87", "title": "A status report tells the sender exactly what is missing", "statement": "Every frame of a report written by WriteStatus is accepted by the decoder at the other end, which reads the session, the progress and the in-response-to offset of the transfer, and holes covering exactly the offsets not received below some received offset. (Fails for reports with a timestamp, which no receiver accepts; proved for reports without one.)", "quantifier": "every history of received ranges, every flag text, every transfer, MTU and clock", "why_tests_cant": "It composes unbounded histories of ranges with report building and two wire formats; single-layer tests do not meet the stamped case.", "anchors": ["sarwin/sarwin.go: WriteStatus", "status/status.go: Encode, Decode", "holes/holes.go: Add, Getholes"]}
{"id": "C88", "title": "The reader of a stamped data frame learns when it was built", "statement": "A data frame built with a timestamp is accepted by the decoder at the other end, which reads the session, offset and payload it was built with and the second of the clock at which it was built. (Fails for the empty end-of-data frame with a 16 bit descriptor and for the local timestamp type; proved otherwise.)", "quantifier": "every clock from 1970 to 2262, every flag text, session, offset and payload", "why_tests_cant": "Depends on the clock and on every timestamp type, payload length and descriptor together.", "anchors": ["data/data.go: New, Encode, Decode", "timestamp/timestamp.go: New, Encode, Decode"]}
{"id": "C89", "title": "Fetching a file never destroys one that is there", "statement": "Starting a transfer that fetches a file whose name is taken in the local directory is refused and leaves the file as it is. (Fails: the check sits inside the loop over open transfers, so it is skipped when there are none, and it does not know `take`. Proved for get and getdir while a transfer is open; proved in general that otherwise the file is cut to nothing.)", "quantifier": "every transfer table, file system, peer and file name", "why_tests_cant": "Depends on the state of the transfer table, on the file system and on the type of transfer together.", "anchors": ["sarwin/sarwin.go: NewInitiator", "fileio/fileio.go: FileOpen, FileExists"]}
{"id": "C90", "title": "Sending a file sends every byte once, in order, and marks the end", "statement": "senddata sends a file as consecutive blocks, one frame per block at its offset; only the last frame is marked as the end; the last and every hundredth ask for a status; the payloads in order are the file; it returns after one round more than there are full blocks and reports the complaints of the connection and then success.", "quantifier": "every file below 2^63 bytes, every MTU with room, every accepted flag text, every clock and every sequence of answers of the connection", "why_tests_cant": "Unbounded file lengths and block sizes; off-by-one errors at whole multiples of the block and of one hundred show for particular lengths only.", "anchors": ["client/client.go: senddata", "sarwin/sarwin.go: maxpaylen", "data/data.go: New"]}
{"id": "C91", "title": "Data frames fit the MTU and the descriptor fits the file", "statement": "The payload length computed by maxpaylen makes every data frame fit the MTU with its IP and UDP headers and wastes nothing; the descriptor chosen by filedescriptor can hold every offset of the file and no narrower one can. (Fails if the flag text does not name the descriptor; proved if it does.)", "quantifier": "every MTU, every accepted flag text, every file and every frame of it", "why_tests_cant": "The sizes depend on the MTU, the descriptor, the timestamps and the file length together.", "anchors": ["sarwin/sarwin.go: maxpaylen, filedescriptor", "data/data.go: Encode"]}
{"id": "C92", "title": "A file sent in frames and stored from frames is the same file", "statement": "If every data frame with bytes sent by senddata is encoded, decoded and stored completely at least once, in any order and with any repetitions or failed writes in between, the stored file equals the sent one and the received ranges are the single range of the whole file; the receiver also learns of the end. (The last part fails for stamped frames with a 16 bit descriptor when the file is a whole number of blocks: no reader accepts the frame that marks the end.)", "quantifier": "every file, MTU, flag text, clock and arrival order", "why_tests_cant": "All orders and repetitions of an unbounded number of frames, across sender, wire format and file storage.", "anchors": ["client/client.go: senddata", "data/data.go: Encode, Decode", "fileio/fileio.go: FileWrite", "holes/holes.go: Add"]}
{"id": "C93", "title": "A hole that a status reports is filled", "statement": "For a hole inside the file, readstatus sends data frames that carry exactly the bytes of the hole at their offsets. (Fails for every hole: one that starts at 0 loses its first block, a later one with a block's bytes panics, a shorter one is ignored; proved that what is sent for a hole at 0 is genuine.)", "quantifier": "every hole, file, block length, flag text, clock and answer of the connection", "why_tests_cant": "Index arithmetic over all holes, lengths and block sizes.", "anchors": ["client/client.go: readstatus"]}
{"id": "C94", "title": "A finished put reports success and putrm then removes the file", "statement": "When the data is sent and the status reader reports success, cput reports success, and cputrm removes the local file. (Fails for every sequence of events: cput reports only errors. Proved that it reports the first error.)", "quantifier": "every sequence of events from the two goroutines and every outcome of the steps before", "why_tests_cant": "All interleavings of two goroutines' messages.", "anchors": ["client/client.go: cput, cputrm"]}
{"id": "C95", "title": "The listings name every command once, in order", "statement": "help, help ? and usage show one entry for every command and no other, in order of name, whatever the iteration order of the map and the sorting algorithm.", "quantifier": "every table of commands with typable names, every iteration order, every sort", "why_tests_cant": "Go iterates over maps in random order, so a dependence on the order shows only now and then.", "anchors": ["sarwin/sarwin.go: cmdHelp, cmdUsage"]}
{"id": "C96", "title": "exit ends the program with the level asked for", "statement": "exit, exit 0, exit 1 and quit end the program with the level asked for, and nothing else typed does. (Fails: with a level the program goes on, without one it ends with level 1; proved: exactly the bare words exit and quit end it.)", "quantifier": "every typed line, every prompt without a colon, every table of commands", "why_tests_cant": "The words are compared in two places, one of them before the line is split into words; which lines slip between the two needs all lines.", "anchors": ["sarwin/sarwin.go: GetLine, cmdExit"]}
{"id": "C97", "title": "A question mark explains the command and changes nothing", "statement": "<command> ? shows the help and the usage of that command and changes neither settings nor transfers. (Fails for ls, cancel, quit and usage; proved for the others.)", "quantifier": "every state of the settings, the transfers and the beacons, every table of commands", "why_tests_cant": "Every state has to be left alone, not only the initial one.", "anchors": ["sarwin/sarwin.go: cmd*"]}
{"id": "C98", "title": "clear clears exactly the named windows and leaves the user where they were", "statement": "clear clears the windows named up to the first bad name, or all three; however several clear commands mix, every window is cleared as often as asked, and the user stays in their window. (The last fails for two at a time; proved for one.)", "quantifier": "every list of names, every number of commands, every interleaving", "why_tests_cant": "Commands run as goroutines that save and restore the current window without a lock; the interleaving that loses it is rare.", "anchors": ["sarwin/sarwin.go: cmdClear"]}
{"id": "C99", "title": "peers lists every peer once in aligned columns", "statement": "The table of peers has one line for every peer with all its attributes, in order of the lines, independent of the sort, and all lines are equally long. (The last fails for peers with 128 bit descriptors; proved for peers whose cells fit.)", "quantifier": "every list of peers, every reachable state of the program with the shipped tables", "why_tests_cant": "The widths are computed from all peers together; a cell that outgrows its column needs a particular peer.", "anchors": ["sarwin/sarwin.go: cmdPeers", "beacon/beacon.go: NewPeer"]}
{"id": "C100", "title": "The table of transfers lists every transfer with its direction in aligned columns", "statement": "The table of Info has one line for every transfer of the type asked for, with its direction, in aligned columns. (Fails for every table; proved: one line per transfer.)", "quantifier": "every list of transfers, every type asked for", "why_tests_cant": "No test looks at the width of lines; the claim is about all tables.", "anchors": ["sarwin/sarwin.go: Info, FmtPrint"]}
{"id": "C101", "title": "The windows can be rotated through and the user sees where they are", "statement": "Rotating visits every window that can be seen once and leads back; the packet window can be seen exactly after an odd number of presses of its key; the window the user is in can always be seen. (The last fails: ^P pressed in the packet window hides it; proved for the other windows.)", "quantifier": "every sequence of keys, every screen on which the layout succeeds", "why_tests_cant": "Whether a window is covered depends on the whole history of keys; histories are unbounded.", "anchors": ["sarwin/sarwin.go: switchView, showPacket, setCurrentViewOnTop"]}
{"id": "C102", "title": "Text is shown in the colour asked for", "statement": "Text printed in a named colour is shown in that colour, all of it, and afterwards the terminal is as before; unknown names are shown white on bright red; different names look different. (Fails for text with escape sequences of its own and for names such as red_bblack and ured_black; proved for text without.)", "quantifier": "every colour name, every text", "why_tests_cant": "Texts come from the network, such as file names; the claim is about all of them.", "anchors": ["sarwin/sarwin.go: setcolour, fprintf, fprintln"]}
{"id": "C103", "title": "Every text printed is shown once, whole and in order", "statement": "Every text printed is shown once and whole, nothing else is shown, and the order is kept. (The order fails: each print starts a goroutine; proved if each text is shown before the next is printed.)", "quantifier": "every sequence of prints and every order in which the main loop takes them", "why_tests_cant": "The order depends on the scheduler.", "anchors": ["sarwin/sarwin.go: fprintf, fprintln"]}
{"id": "C104", "title": "The windows tile the screen", "statement": "The layout succeeds exactly on screens of at least twelve columns and twelve rows; then the windows for commands, errors and messages cover every cell of the screen exactly once and the packet window lies strictly inside the message window.", "quantifier": "every size of the screen", "why_tests_cant": "Sizes are unbounded and off by one mistakes show only at particular ones.", "anchors": ["sarwin/sarwin.go: Layout, cmdView, errView, msgView, packetView"]}
{"id": "C105", "title": "The program starts with what it was configured with", "statement": "If main gets to its loop, it has the configured settings, directory, MTU and port and has joined both multicast groups; it gets there whenever everything it needs is there, and then serves the files of its directory. (The last fails for a relative directory, which is entered and then looked up again; proved for rooted ones.)", "quantifier": "every host: files, interfaces, sockets, arguments", "why_tests_cant": "Start up depends on the machine; a test sees one machine.", "anchors": ["saratoga.go: main"]}
{"id": "C106", "title": "Settings commands at the same time act as if one came after the other", "statement": "However many goroutines give settings commands at the same time, the settings and the replies are those of the commands given one after another, in the order they got the lock; none is lost, none ends the program and nobody waits for ever. A transfer's copy of the settings is what the settings were at some time, and making it never ends the program. (The last two fail: CopyCliflags takes no lock. Proved: every single value in the copy is one the setting had, and a copy made while nothing changes is whole.)", "quantifier": "any number of goroutines, every list of commands and every interleaving, every starting settings", "why_tests_cant": "Interleavings are unbounded and chosen by the scheduler.", "anchors": ["sarwin/sarwin.go: Run, cmdChecksum and the other settings commands", "sarflags/sarflags.go: CopyCliflags, Setglobal"]}
{"id": "C107", "title": "Turning the beacons off stops the beacons", "statement": "Beacon commands given at the same time act whole, one after another in the order they got the lock; after beacon off takes effect, no frame is sent on behalf of an earlier beacon command and those not yet sent never are. (The last fails: the command holds the lock while it sends and sleeps, so beacon off takes effect only once all frames were sent. Proved: while only beacon off commands got the lock, nothing is sent.)", "quantifier": "any number of goroutines, every list of beacon commands and every interleaving", "why_tests_cant": "Depends on when the scheduler runs which command.", "anchors": ["sarwin/sarwin.go: cmdBeacon, sendbeacons"]}
{"id": "C108", "title": "Looking at the table of transfers while it changes never ends the program", "statement": "Listing the transfers and looking for one while other goroutines add and remove transfers never ends the program, and shows transfers that are or were in the table. (Fails: Info and Match walk the table without its lock, with the length taken at the start; any removal meanwhile makes them panic. Proved as long as transfers are only added.)", "quantifier": "every table, any number of readers, every interleaving", "why_tests_cant": "Depends on when the scheduler runs the removal.", "anchors": ["sarwin/sarwin.go: Info, Match, Remove"]}
{"id": "C109", "title": "Sending a frame sends exactly that frame or says why not", "statement": "If Send of a frame reports no error, exactly one datagram has left, to the address given, and decoding it gives the frame back; otherwise at most a beginning of it has left and the error is reported. Sending works on the connection of a transfer. (The last fails: those connections are dialled and Send uses WriteTo, which such connections refuse, so no status report of a transfer ever leaves.)", "quantifier": "every frame of the five kinds, every connection, every answer of the operating system", "why_tests_cant": "Frames, connections and the answers of the operating system range over unbounded sets; tests use the loopback.", "anchors": ["data/data.go: Send", "request/request.go: Send", "metadata/metadata.go: Send", "status/status.go: Send", "beacon/beacon.go: Send", "sarwin/sarwin.go: WriteStatus"]}
{"id": "C110", "title": "Editing the command line edits the text typed and never the prompt", "statement": "Whatever keys are pressed after a prompt, the prompt stays; the text after it is what a line editor in overwrite mode makes of the keys, and Enter runs that text. (The prompt stays for every padding of at least three; with the configured padding two, typing one character makes Enter panic. The text fails for characters of more than one byte, since the right arrow counts bytes.)", "quantifier": "every sequence of keys, every prompt, every width of the window", "why_tests_cant": "Key sequences are unbounded.", "anchors": ["sarwin/sarwin.go: BackSpace, CursorLeft, CursorRight, promptlen, prompt, GetLine"]}
{"id": "C111", "title": "Asking for a setting tells the setting", "statement": "The answer to a question for a setting is the same exactly when the setting is the same, and shows the value set. (Fails for timeout metadata, which looks at the request timer.)", "quantifier": "every pair of settings, every question", "why_tests_cant": "That two different settings never give the same answer is about all pairs of settings.", "anchors": ["sarwin/sarwin.go: cmdChecksum, cmdDescriptor, cmdFreespace, cmdReqtstamp, cmdRxwilling, cmdStream, cmdTxwilling, cmdTimezone, cmdBcount, cmdInterval, cmdTimeout"]}
{"id": "C112", "title": "The arrow keys keep the cursor on text", "statement": "Whatever is printed to a window and whichever arrow keys are pressed, the cursor stays inside the window and on a row with text; a key moves it by one row. (Fails in an empty window, as at the start and after clear: every press of the down key moves the cursor one row further, without end.)", "quantifier": "every window height, every amount of text, every sequence of prints and keys", "why_tests_cant": "Sequences of prints and keys are unbounded, and so are the amounts of text.", "anchors": ["sarwin/sarwin.go: CursorDown, CursorUp, gotolastrow, Clearwin"]}
{"id": "C113", "title": "Text that has left a window can be brought back with the arrow keys", "statement": "Every row printed to a window can be brought onto the screen again with the arrow keys. (Holds in the packet window up to the number of lines; the other windows scroll by themselves and always show their last rows.)", "quantifier": "every window height, every amount of text, every sequence of keys", "why_tests_cant": "That no sequence of keys shows a row is about infinitely many sequences.", "anchors": ["sarwin/sarwin.go: CursorDown, CursorUp, Layout"]}
{"id": "C114", "title": "What is printed after clear is shown", "statement": "After clear, what is printed to the window is shown as long as the window has room for it. (Fails if the window had been scrolled before: clear keeps the origin, so the first rows printed afterwards are not seen.)", "quantifier": "every window before clear, every sequence of prints", "why_tests_cant": "Windows and sequences of prints are unbounded.", "anchors": ["sarwin/sarwin.go: Clearwin"]}
{"id": "C115", "title": "Switching to a window puts the cursor on its last row", "statement": "Switching to a window puts the cursor on the last row of its text and shows that row. (Fails in the packet window once it has more lines than fit: the last row but one. After clear of a scrolled window the cursor is put behind the text.)", "quantifier": "every window height, every amount of text, every use of the window before", "why_tests_cant": "The earlier use of the window is an unbounded sequence.", "anchors": ["sarwin/sarwin.go: gotolastrow, SwitchView"]}
{"id": "C116", "title": "A session of commands runs each command once, in order, behind numbered prompts", "statement": "Commands typed one after another at the prompt are run in this order, each as typed; each stays in the window behind its prompt, prompts are numbered and the cursor is behind the last one. (A command that reaches the last column of the window ends the program when Enter is pressed, unless the window already scrolls; up and Enter run the last command again and no prompt follows.)", "quantifier": "every list of commands, every prompt, every size of the window", "why_tests_cant": "Lists of commands and their texts are unbounded.", "anchors": ["sarwin/sarwin.go: GetLine, prompt, promptlen, CursorUp, CursorDown, CmdPrintf"]}
{"id": "C117", "title": "A command line that is not understood is answered with the usage", "statement": "A command that gets words it does not take does nothing and says its usage in the error window. (Holds for nearly all; descriptor also reports the size as if set, timeout with an unknown timer and off and peers with a word say nothing, history ignores a word, help with a word describes help, give says Invalid Command.)", "quantifier": "every command, every list of words, every state of the settings, transfers and peers", "why_tests_cant": "The wrong words are infinitely many; tests try a few.", "anchors": ["sarwin/sarwin.go: cmdBcount, cmdChecksum, cmdDescriptor, cmdTimeout, cmdTran, cmdFiles, cmdGive, cmdHistory, cmdHome, cmdExit, cmdClear, cmdLs, cmdPeers, cmdHelp, prusage"]}
{"id": "C118", "title": "Printed time stamps tell the moment", "statement": "A time stamp prints the weekday, date and time of day in UTC of the moment it was made at, with the thousandths for the types that have nanoseconds, at the sender and at the receiver; different moments print differently, and until the year 9999 every text of a type is equally long. (Holds from the year 1 on for all types but localinterp, which prints its own name for every moment.)", "quantifier": "every moment, every type of time stamp", "why_tests_cant": "There are 2^64 seconds and leap years in cycles of 400 years; a test tries some days.", "anchors": ["timestamp/timestamp.go: Timestamp.Print, New, Get, Put"]}
{"id": "C119", "title": "A transfer is sent to the peer it was made for", "statement": "put, putrm and putblind of the client resolve the address of the peer of the transfer at the port given and send there. (Fails for every peer: the text that is resolved has the port of the connection in it and cannot be resolved, so the client reports cantsend and sends nothing; it would hold were the port not in the text.)", "quantifier": "every address, port, file, transfer type and behaviour of the network", "why_tests_cant": "A test dials one address on one machine; the claim is about every address text and every resolver.", "anchors": ["client/client.go: Doclient, cput, cputrm, cputblind"]}
{"id": "C120", "title": "Disk usage numbers are those of the disk", "statement": "Size, Free, Available and Used are the bytes of the disk, those free, those free to the user and those not free. (Holds on linux and darwin for disks of less than 2^64 bytes; on windows free and available are exchanged; used and free always add up to the size.)", "quantifier": "every disk, every answer of the system", "why_tests_cant": "A test sees the disk of its machine and one operating system, usually without quota.", "anchors": ["sarsys/sys_linux.go: NewDiskUsage, Free, Available, Size, Used", "sarsys/sys_darwin.go: NewDiskUsage", "sarsys/sys_windows.go: NewDiskUsage"]}
{"id": "C121", "title": "OutboundIP answers an address of the kind asked for", "statement": "Asked for IPv4 or IPv6, OutboundIP answers the first address of that kind the host name has, and ends the program exactly if it has none. (Holds for IPv4; for IPv6 it answers the first address of either kind.)", "quantifier": "every list of addresses of the host, every kind", "why_tests_cant": "A test sees the addresses of its machine.", "anchors": ["sarnet/sarnet.go: OutboundIP"]}
{"id": "C122", "title": "Printed frames tell their contents apart", "statement": "Two frames of a type whose Print texts, or whose ShortPrint texts, are the same have the same header, session, sizes, offsets, holes, names, identifiers, checksum and printed times (of data only the length of the payload is printed), and the text of a received frame shows every one of its fields. (Holds for beacon and data; for status if the time stamp holds a time; for request, directory entry and metadata if file names have no end of line; a request with one in its name prints like another request.)", "quantifier": "every two frames, every flag table", "why_tests_cant": "Telling texts apart is a claim about all pairs of frames, and the pairs that collide hold an end of line in a name.", "anchors": ["beacon/beacon.go: Print, ShortPrint", "data/data.go: Print, ShortPrint", "request/request.go: Print, ShortPrint", "status/status.go: Print, ShortPrint", "metadata/metadata.go: Print, ShortPrint", "dirent/dirent.go: Print, ShortPrint"]}
{"id": "C123", "title": "Keybindings tells of every key it cannot bind", "statement": "Keybindings answers no error only if each of its eleven keys is bound to its function. (Fails: when one of six keys cannot be bound it stops and answers no error, so with the left arrow refused the program runs with neither Ctrl-C nor Enter bound. The error answered is that of the first key refused, exactly if it is one of the other five; if no key is refused all are bound.)", "quantifier": "every answer of the window library for every key", "why_tests_cant": "No test can make a terminal library refuse each set of keys.", "anchors": ["sarwin/sarwin.go: Keybindings", "saratoga/saratoga.go: main"]}
{"id": "C124", "title": "The text of a transfer tells it apart", "statement": "Two transfers with the same Print text have the same direction, type, peer and file name, whatever is in the name.", "quantifier": "every two transfers whose type is one of the program's and whose peer text has no bar", "why_tests_cant": "The claim is about all pairs of transfers, and about names with the separator in them.", "anchors": ["sarwin/sarwin.go: (t *Transfer) Print, Directions"]}
{"id": "C125", "title": "A key acts on the window the user is in and on no other", "statement": "Whatever has happened, a key changes only the window the user is in, and leaves the user there; outside the command window characters, the arrows left and right and the erasing keys do nothing and Enter is the arrow down; keys never change the text of the other windows; Ctrl-C ends the program everywhere and no other key does; while the user stays in the command window, what it shows and what is run depends on the keys for it alone, whatever is printed elsewhere. (Fails for Ctrl-Space: each time a debugging line is printed to the error window, and while the packets are shown the cursor of the packet window is moved instead of that of the window gone to.)", "quantifier": "every sequence of keys, prints and clears, in windows of every size", "why_tests_cant": "The claim is about every interleaving of keys with prints from other goroutines; a terminal is needed to test even one.", "anchors": ["sarwin/sarwin.go: switchView, setCurrentViewOnTop, gotolastrow, BackSpace, CursorLeft, CursorRight, CursorDown, CursorUp, GetLine, showPacket, Quit, Keybindings"]}
{"id": "C126", "title": "The project's own tests pass", "statement": "With the shipped configuration each of the six test programs of the project (timestamp, data, status, request, metadata, fileio) ends with success, at any time between 2000 and 2106, on any file system, and with any session, payload and position in place of those the tests use. (Holds for timestamps, data and status frames. The request test ends the process, since fileordir is not a configured field. The metadata test never passes and the file test panics at its first step, since the settings that hold the directory are published only by main.)", "quantifier": "every clock between 2000 and 2106, every file system, every session, payload, offset below 2^32, progress and list of holes", "why_tests_cant": "This is about the tests: one run shows their outcome on one machine at one time, not that it cannot be otherwise.", "anchors": ["timestamp/timestamp_test.go: TestTimestamp", "data/data_test.go: TestData", "status/status_test.go: TestStatus", "request/request_test.go: TestRequest", "metadata/metadata_test.go: TestMetadata", "fileio/fileio_test.go: TestFileio", "fileio/fileio.go: Sardir, FileExists, FileOpen, FileRm, FileDelete", "sarflags/sarflags.go: Cliflag"]}
{"id": "C127", "title": "The running program as a whole", "statement": "Listeners, main loop and command line together, in any execution: the network side behaves as it does alone; the settings are exactly what the commands typed so far make of those read at the start, so timers stay proper and flags other than txwilling legal; a network event changes nothing the commands keep and a command nothing the network side keeps; there are never two transfers of one file with one peer, and session numbers do not repeat before they wrap; a line can be entered as long as the process runs; the events that end the process are exactly a datagram the listener does not survive, a deadly frame taken by the main loop, the end of a listener or of the interface, a fatal line and a command that does not come back; and if no event is harmful the process never ends.", "quantifier": "every execution of any length, every order of datagrams, lines, channel steps and changes of the files, every answer of network and system", "why_tests_cant": "The interleavings of network traffic and typed lines are unbounded, and a test sees the few that happen on one run.", "anchors": ["saratoga/saratoga.go: main, listen", "sarwin/sarwin.go: GetLine, Run, Docmd, cmdhandler", "sarwin/sarwin.go: Transfers, sessionid, clibeacon, Cexit", "sarflags/sarflags.go: Cliflag"]}
{"id": "C128", "title": "Looking at a file", "statement": "For every file tree and every name, FileMeta returns: an error if the name leads to nothing, else kind, size, times and flags as they are, with IsDir for a directory and for a link that leads to one; so no command ends the process because of the file it names. (Holds for everything but links, if the name leads to something or to nothing at all. A name below a file, or one the system refuses, panics; so does a link whose target, looked for from the working directory instead of the link's own, is not there. A link to a link to a directory is called no directory. The seven commands that start a transfer end the process in exactly these cases.)", "quantifier": "every tree with links, working directory, name, refusal of the system, state of the program", "why_tests_cant": "The test of the package looks at two plain files; the failures need links, files in the place of directories and refusals.", "anchors": ["fileio/fileio.go: FileMeta", "sarwin/sarwin.go: NewInitiator, NewResponder", "dirent/dirent.go: Statfile"]}
{"id": "C129", "title": "What a transfer command says is so", "statement": "Every line of a transfer command is answered. It says that a transfer was added just when the table has it, with the troubles it had in dialling, opening and looking; a refusal names a reason that holds and shows the command's own help; an address is called invalid just when it is. (get with a bad address prints nothing. give calls a good address invalid when the transfer is refused and does not when the address is bad. A refused put shows the help of getrm, which is no command. A connection is called missing to the peer of the new command though it is another transfer that has none.)", "quantifier": "every transfer command, line, table of transfers, answer of the operating system and of the network", "why_tests_cant": "Nothing in the tests reads what is printed; that a message is printed only when true needs all tables and all answers.", "anchors": ["sarwin/sarwin.go: NewInitiator, cmdGet, cmdGetdir, cmdTake, cmdPut, cmdPutblind, cmdGive, cmdDelete, cmdTran, cmdFiles"]}
{"id": "C130", "title": "What the sender learns from status frames", "statement": "Reading status frames goes on just as long as they say all is well: the caller is told exactly the progress and the number of each, in order, metadata is sent just when a status asks for it, an error of the other end is passed on by its name and ends the reading, as does silence; a report of a transfer without gaps tells the sender exactly what the other end wrote into it. A frame that is no status, or of another session, does no harm. (Any frame of version 1 that is no status ends the process, because the message names the field frametpye; a datagram of less than four bytes panics; the session is never compared; for a whole file success is sent twice.)", "quantifier": "every datagram, every sequence of reads, every answer of the network, every transfer without gaps and its reports", "why_tests_cant": "No test runs the client; the claim is about every datagram a peer can send and every order of reads.", "anchors": ["client/client.go: readstatus", "status/status.go: Decode, ShortPrint", "sarwin/sarwin.go: WriteStatus"]}
{"id": "C131", "title": "Several programs and the network between them", "statement": "Any number of running programs on a network that loses, delays, doubles and reorders datagrams, with nobody else sending: each program goes through an execution of its own on datagrams of the others only; only beacons travel, so no request, data, metadata or status is ever handled and no file ever moves from one machine to another, whatever is typed; every entry of every peer table is true, that is, stands under the source address of a datagram sent to an address heard here and shows the name, free space and settings its sender had when it sent it; no program can end or hang another; every beacon in the air can still be heard, and a beacon command makes every node that hears it able to list the sender with its present settings.", "quantifier": "any number of programs, every execution: any lines entered anywhere, any loss, delay, doubling and reordering", "why_tests_cant": "It is about every interleaving of any number of processes and every behaviour of the network between them.", "anchors": ["saratoga/saratoga.go: listen, main", "sarwin/sarwin.go: cmdBeacon, sendbeacons, cmdput, cmdget", "beacon/beacon.go: New, Encode, Send, Decode, NewPeer"]}
{"id": "C132", "title": "The goroutines of a put", "statement": "However the reader of statuses, the sender of data and the main loop of a put get on between their four channels: the main loop hears the words of each in order, ends with the first error it hears and with nothing else; no execution goes on for ever; while the put runs nobody blocks anybody for ever; it ends exactly if one of the two has an error to tell; and when it has ended both goroutines return. (The last fails: the channels hold one item each and nobody empties them any more, so if two frames cannot be sent the sender never returns. Proved exactly when they return.)", "quantifier": "everything the two goroutines may tell, every interleaving", "why_tests_cant": "A deadlock shows only in some interleavings; that none has one is about all of them.", "anchors": ["client/client.go: cput, readstatus, senddata"]}
{"id": "C133", "title": "What is printed about datagrams", "statement": "For every datagram the listener reads: if it is passed on, nothing is printed in the error window; if not, exactly one line is, which names the sender and what is wrong with the datagram (too short, too long and by how much, other version, or a frame of its type that cannot be read, with the session number it carries), and two different faults are never told of one datagram. In every execution, as long as the program runs: the error lines that name senders account for the datagrams dropped, in order and each once; the Rx lines in the packet window show exactly the packets handled, in order; the lines about replies show exactly the replies taken off the queues, in order. Printing changes nothing else.", "quantifier": "every datagram, clock, buffer size; every interleaving of listeners and main loop", "why_tests_cant": "An account that never misses or repeats an item is about all byte strings and all interleavings.", "anchors": ["saratoga/saratoga.go: listen, main", "trans/trans.go: AddRxTran"]}
{"id": "C134", "title": "What is new is announced, once", "statement": "The line Added New Peer is printed for a peer exactly when it comes into the table, and a transfer started for a request is announced by the line New transfer request. (Both fail: a beacon of a known peer with other contents is announced as a new peer again, and the line about transfers is printed in no execution. Proved: the line is printed exactly if the table of peers changes, and while the program runs the addresses announced are exactly those in the table.)", "quantifier": "every execution of listeners and main loop, any tables", "why_tests_cant": "That a line is never printed, and that announcements and table agree, is about all executions.", "anchors": ["saratoga/saratoga.go: main", "beacon/beacon.go: NewPeer", "trans/trans.go: AddRxTran"]}
{"id": "C135", "title": "The reason printed for a refused request agrees with the answer", "statement": "With tables that have the names the handler looks up (C40 is about those shipped), for every readable request of version 1 and every state of the files: if the answer is success nothing is printed in the error window, and otherwise exactly one line is, which belongs to the error code answered and tells what is so of the request (its flags, its file name, whether the file is there or could be removed).", "quantifier": "every request, file system, table of transfers and clock", "why_tests_cant": "Header space times file system states; the answer and the line are built by different code.", "anchors": ["trans/trans.go: AddRxTran", "saratoga/saratoga.go: main"]}
{"id": "C136", "title": "Only the user types", "statement": "The windows and the running program together: an execution at the keyboard is an execution of the program of C127 whose lines are those entered in the command window, and its windows are those of C125. Two executions with the same keys, whatever datagrams arrive, whatever is printed and whatever happens to the files, have while both run the same command window, the same commands run, the same settings and exit level; with the shipped tables and files nobody else touches also the same transfers, session numbers, beacons and files. Commands that fit their line are run as typed whatever happens in between. Ctrl-C is always taken; after it nothing more is run and the main loop can always take it and end the process.", "quantifier": "all machines, settings, files, window sizes, prompts, all interleavings of keys, datagrams, steps of the main loop, output to the windows and changes of files, pairs of such executions", "why_tests_cant": "It compares every pair of interleavings of keys with network traffic and output; a test runs a few schedules.", "anchors": ["sarwin/sarwin.go:575-607", "sarwin/sarwin.go:2497-2521", "saratoga/saratoga.go:599-600", "saratoga/saratoga.go:725-740"]}
{"id": "C137", "title": "Data for an accepted transfer reaches the file", "statement": "When a request to put a file was accepted, data frames of its session from its peer are written to that file. (The code does not: whatever the tables, a data, metadata or status frame changes no file, no transfer, no peer and puts nothing on the wire. With tables that let requests be answered, the main loop takes no frame at all any more once a transfer is in the table, in no continuation; with the shipped tables a running program has no transfer, and its files are as at the start or as others left them.)", "quantifier": "all tables, all states, all executions and all continuations of them", "why_tests_cant": "That no continuation whatever handles the waiting frame is a statement about infinitely many executions.", "anchors": ["saratoga/saratoga.go:605-671", "trans/trans.go:51-233"]}
{"id": "C138", "title": "The peer list stays bounded and silent peers leave it", "statement": "There is a bound on the number of entries in the list of peers, and a peer from which nothing more is heard leaves it. (The code has neither: for any list of hosts with different addresses, one beacon of eight bytes from each gives a list of exactly these; an address in the list keeps its place in every continuation. What holds: there are never more entries than beacons handled, and never more of these than datagrams read.)", "quantifier": "all lists of hosts, all settings with an MTU of at least 68, all executions and continuations", "why_tests_cant": "It speaks about lists of every length and about every continuation.", "anchors": ["beacon/beacon.go:328-385", "saratoga/saratoga.go:607-617", "saratoga/saratoga.go:639-649"]}
{"id": "C139", "title": "Ctrl-C ends the program also when requests are answered", "statement": "Also with tables that let requests be answered, after Ctrl-C the main loop can end the process. (It cannot: it can exactly if no request has been handled so far; once one was, in every continuation it never takes notice, while the windows are gone and no key is taken.)", "quantifier": "all tables that let requests be answered, all machines, all interleavings of keys, datagrams, steps of the main loop and output", "why_tests_cant": "That the main loop takes notice in no continuation is about infinitely many schedules.", "anchors": ["saratoga/saratoga.go:599-600", "saratoga/saratoga.go:630-637", "saratoga/saratoga.go:723-740", "trans/trans.go:207-232"]}
{"id": "C140", "title": "The windows show what happened, in order", "statement": "Every line the listeners and the main loop print reaches its window, in the order printed. (The order fails: the lines of two dropped datagrams can be shown the other way round; and after Ctrl-C or the end of the process nothing on its way is shown. What holds: in every state the lines shown and on their way are the lines printed, each once; so while the process runs the error window and what is on its way to it name exactly the senders of datagrams that carried no frame, the packet window exactly the packets handled; and as long as the windows are there everything on its way can be shown.)", "quantifier": "all executions with any delay and any order of the goroutines of Update", "why_tests_cant": "It quantifies over all orders in which the goroutines of Update are run.", "anchors": ["sarwin/sarwin.go:304-348", "saratoga/saratoga.go:177-423", "saratoga/saratoga.go:605-721", "saratoga/saratoga.go:723-740"]}
{"id": "C141", "title": "The crc32 sent with a file tells it from a damaged one", "statement": "The crc32 of a file does not depend on the pieces it is read in and has the length the tables ask for. Two files of one length have different sums if all their differences lie within 32 adjacent bits (so if up to four adjacent bytes were replaced), or if they differ in exactly two bits less than 2^32-1 bits apart; 33 adjacent bits can be changed in any file without changing the sum. Nodes that announce two such files with crc32 send metadata frames whose readers get different checksums.", "quantifier": "all files of any length, all ways of reading them in pieces, all places of the damage, all legal settings", "why_tests_cant": "The number of files and of damages is unbounded; a table with one wrong entry gives plausible sums for most files and only fails to tell some pairs apart.", "anchors": ["fileio/checksum.go: Checksum, IEEE", "metadata/metadata.go: New"]}
{"id": "C142", "title": "Which received frames are sent on unchanged", "statement": "Encoding what was read from a frame gives the very bytes that were read: for every beacon; for a data frame exactly if it has no timestamp or the bytes its timestamp's type does not use are zero; for a request (read into a variable with no name) exactly if the name is ASCII; for a metadata frame exactly if the name is ASCII of at most 1024 bytes, the size is below 2^32 and the frame ends with the NUL after the name; for a status frame under the shipped tables (read into a variable with no holes) exactly if it has no timestamp and no bytes after its last whole hole. So different beacons, and different requests with ASCII names, are never read as the same value.", "quantifier": "all frames of any length that are read without error, all contents of the receiving variable otherwise, all tables (shipped ones for status frames)", "why_tests_cant": "Round trip tests start from values the program made; this starts from arbitrary bytes of any length, where unused, trailing and non ASCII bytes come in, and asks for equality of every byte.", "anchors": ["beacon/beacon.go: Decode, Encode", "data/data.go: Decode, Encode", "request/request.go: Decode, Encode", "metadata/metadata.go: Decode, Encode", "status/status.go: Decode, Encode", "dirent/dirent.go: Decode, Encode", "timestamp/timestamp.go: Get, Put"]}
{"id": "C143", "title": "A waiting frame is not changed by the datagrams after it", "statement": "Although each listener reads all its datagrams into one buffer, the packets in the queue and those the main loop has taken out and still uses read, at every later moment, exactly as what the listener makes of each datagram looked at by itself, in order of arrival; likewise the replies. Nothing of a longer datagram is left in a shorter one after it, and a round ends the process exactly if it would for that datagram alone.", "quantifier": "any number of listeners, all datagrams in all interleavings with the main loop taking packets, all tables, every MTU", "why_tests_cant": "Whether two slices share an array shows only when a later datagram overwrites a part of an earlier frame that somebody still holds; that depends on timing, lengths and the order of arrival, for unbounded many datagrams.", "anchors": ["saratoga/saratoga.go: listen (buf, framebuf)", "data/data.go: Decode, Val", "request/request.go: Decode, Val", "metadata/metadata.go: Decode, Val"]}
{"id": "C144", "title": "The history holds the commands entered and history shows them", "statement": "The history of commands is exactly the list of the non-empty lines entered, in order and as typed, whatever keys are used to edit them; entering them again starts the same commands; and the command history shows them. (The history is kept so, but history shows none of it.)", "quantifier": "every sequence of keys in the command window, every prompt, every size of the window, every command table", "why_tests_cant": "The history depends on which row the cursor is in when Enter is pressed and on what is behind the first colon of that row, after any sequence of editing keys.", "anchors": ["sarwin/sarwin.go: GetLine (Cinfo.Commands), cmdHistory, prompt"]}
{"id": "C145", "title": "Commands take effect in the order they are entered", "statement": "Whenever the goroutines of the commands run, the effect is that of the commands one after another in the order their lines were entered: settings, transfers, exit level and beacons on the wire; no command is done by half while another runs, no command waits for good, and while beacons are sent no setting changes under them. (The effect is always that of some order, but a later line can come first.)", "quantifier": "every sequence of lines, every interleaving of the goroutines started for them with each other, with the network side and with the steps of a beacon command, all tables and settings", "why_tests_cant": "Each line starts a goroutine of its own; which runs first, and who gets the lock when several wait, is up to the scheduler, over unboundedly many interleavings.", "anchors": ["sarwin/sarwin.go: docmd (go fn(...)), cmdBeacon, all commands under Climu", "sarflags/sarflags.go: Climu"]}
{"id": "C146", "title": "However the program ends, the terminal is given back and the status tells success from failure", "statement": "Once the windows are up, the process never ends without giving the terminal back; Ctrl-C and a quit end it with status 0, and every failure, at the start or later, with another status. (Neither holds: no end once the loop runs gives the terminal back, and none has status 0, because log.Fatal skips the deferred g.Close; wrong arguments or an unreadable configuration end with status 0.)", "quantifier": "every host, every list of arguments, every state of the program and every event, all tables and settings", "why_tests_cant": "How a process ends depends on which goroutine comes to its end and how, over all states of the program and all answers of the system; a test that ends its own process can observe one such end.", "anchors": ["saratoga/saratoga.go:440-445 (arguments)", "saratoga/saratoga.go:455-459 (ReadConfig)", "saratoga/saratoga.go:497 (defer g.Close)", "saratoga/saratoga.go:500-560 (log.Fatal behind the windows)", "saratoga/saratoga.go:722-732 (end of the loop)"]}
{"id": "C147", "title": "The program says what it starts with and, if it cannot start, what is wrong", "statement": "A program that gets to its loop has shown its directory, the free space, the addresses of its interface and the groups and port it listens on; one that does not names what could not be read, entered, found or joined, with the reason. (Fails: an interface that is not there is reported by the name of the configuration file, a failure of the windows as <nil>, a multicast setting that is no address without its words, and space of 2^64 bytes or more wraps.)", "quantifier": "every host, every list of arguments, every configuration, every answer of the system", "why_tests_cant": "The branches depend on answers of the operating system that a test cannot bring about (no terminal, refused groups, huge file systems), and which text goes with which failure is only seen when the failure happens.", "anchors": ["saratoga/saratoga.go:439-597 (main up to its loop)", "sarflags/sarflags.go:305-317 (getmaxdesc)", "sarnet/sarnet.go:60-65 (UDPinfo)"]}
{"id": "C148", "title": "The locks never block each other", "statement": "However the goroutines take turns, each mutex is held by one goroutine at a time and given back by the one that took it, nobody waits for a mutex they hold, no unlock finds its mutex free, goroutines never wait for each other in a ring, and every goroutine gets through all of its calls, as long as what is done under a lock comes to an end.", "quantifier": "any number of goroutines, each calling any sequence of the functions that take a mutex; every schedule", "why_tests_cant": "A deadlock needs one interleaving among more than can be run; a test that does not hang says nothing of the others. The order in which mutexes are taken has to be the same on every path through every function.", "anchors": ["sarwin/sarwin.go:736-746", "sarwin/sarwin.go:921-986", "sarwin/sarwin.go:990-1086", "sarwin/sarwin.go:1191-1230", "sarwin/sarwin.go:304-348", "sarflags/sarflags.go:322-566", "beacon/beacon.go:344-385", "trans/trans.go:50-233"]}
{"id": "C149", "title": "The record of what was received stays as small as it can be", "statement": "After any sequence of Add calls no list of ranges telling the same is shorter than the one recorded; it has at most one range per call that brought something, grows by at most one per call, and for a file of n bytes has at most (n+1)/2 ranges. Every range begins where some call began and ends where some call ended. There are as many holes as ranges, or one fewer once offset 0 was received.", "quantifier": "every finite sequence of Add calls, every tie order of the sort, every other list of ranges, every file length", "why_tests_cant": "A record that keeps a range too many gives the same answers to every question about offsets and only grows slowly; that it is never longer than necessary compares it with all other lists.", "anchors": ["holes/holes.go:43-65", "holes/holes.go:71-87", "holes/holes.go:91-116"]}
{"id": "C150", "title": "A frame is never taken for one of another kind", "statement": "What a listener reads from the bytes of a beacon, request, data, metadata or status frame that New built and Encode wrote has the same kind, the same header and the same session; no bytes are those of frames of two kinds. (The text of a request must not name the field frametype, which only requests take from their text.)", "quantifier": "every flag text, information, variable used before, clock, file system and MTU; shipped tables", "why_tests_cant": "The kind of a frame is three bits next to fields set from free text, in variables that may have been used before; that no text reaches them is a statement about all texts.", "anchors": ["saratoga/saratoga.go: listen", "data/data.go: New, Encode, Decode", "request/request.go: New, Encode, Decode", "metadata/metadata.go: New, Encode, Decode", "status/status.go: New, Encode, Decode", "beacon/beacon.go: New, Encode, Decode"]}
{"id": "C151", "title": "Time stamps keep the order of the times they were made of", "statement": "Of two times from 1970 on, the stamps with nanoseconds (posix32_32, posix64_32) are in order exactly as the times are and the same only for the same time; the stamps with seconds (posix32, posix64, epoch2000_32) are in order exactly as the seconds are. Read back from their bytes, the stamp of a later time never shows an earlier one.", "quantifier": "every pair of times from 1970 on that the type accepts (nanoseconds since 1970 within 64 bits for the types that have them), any tables", "why_tests_cant": "An overflow or a cut somewhere in the conversion reverses the order of two far apart times only.", "anchors": ["timestamp/timestamp.go: New, Put, Get"]}
{"id": "C152", "title": "A beacon command says what it does", "statement": "A beacon command says to whom it sends how many beacons before it sends them; if no error is shown, exactly the configured number went to every address it said, the same frame each time, and to nobody else; every failure (of the address, of dialling, of making, encoding or writing the beacon) is shown in the error window with its reason, after which nothing more goes to that address. (Fails: beacon v4 and beacon v6 with a group that is no address say that they send, and send nothing.)", "quantifier": "every list of words, settings, state of the command, answers of the network and the disk", "why_tests_cant": "The text and the frames come from different statements in a loop that any write can break off; their agreement has to be seen for every write that can fail.", "anchors": ["sarwin/sarwin.go:699-727", "sarwin/sarwin.go:1275-1366"]}
{"id": "C153", "title": "Replies go to those who asked, are short and are not answered", "statement": "Nobody gets more replies than they sent datagrams. A reply is at most 24 bytes long and never more than three times as long as what it replies to, so the program cannot be used to flood a third party. A program that reads a reply does not answer it, so no two programs answer each other for ever.", "quantifier": "every execution of listeners and main loop, every datagram, every address, every clock and MTU of the reader", "why_tests_cant": "The bound is over all datagrams and all interleavings of two listeners and the main loop; a test shows a few packets. That no reply is ever itself answered needs every reply any listener can build to be readable by every other.", "anchors": ["saratoga/saratoga.go:177-423", "saratoga/saratoga.go:605-732", "trans/trans.go:50-233"]}
{"id": "C154", "title": "The running program touches only files the user fetches", "statement": "A line entered changes a place on disk only if it is get, getdir or take and its file name, taken in the shared directory, leads to that place; the place then holds an empty file or a directory. With the shipped tables, over a whole run in which no other program touches the disk, every place that differs from the start was named by such a line, no datagram changes any file, and nothing that was there vanishes. Names that do not climb stay below the shared directory.", "quantifier": "every machine, every execution of commands, listeners and main loop in any interleaving, every place on every disk", "why_tests_cant": "That every other place is untouched is a claim over all paths of the disk and all runs; a test looks at a few files after a few commands.", "anchors": ["sarwin/sarwin.go:575-607", "sarwin/sarwin.go:921-1086", "fileio/fileio.go:30-74", "saratoga/saratoga.go:605-732"]}
{"id": "C155", "title": "The settings are the last word on each", "statement": "After any sequence of command lines every setting has the last value asked of it, and its old value if none was asked (a data counter of 0 becomes 100 when looked at); everything else is as configured. So saying it twice is saying it once, orders for different settings can be given in either order, and histories with the same last words leave the same settings; in the running program datagrams in between change nothing of this.", "quantifier": "every sequence of command lines of any words, every starting settings, every setting, every interleaving with datagrams", "why_tests_cant": "The claim is over all histories of any length and all settings at once; a test types a few lines and looks at one setting.", "anchors": ["sarwin/sarwin.go:1372-1575", "sarwin/sarwin.go:1697-1753", "sarwin/sarwin.go:2009-2434", "sarwin/sarwin.go:2459-2521"]}
{"id": "C156", "title": "What is opened is closed again", "statement": "Every connection and file the program opens is closed, once, when the one who opened it is done: sending beacons and answering a request that fails leave open what was open before, a put has closed its file and connection whenever it reports, and the connections and files of the transfers in the table are open. FAILS for transfers: removing one closes neither its connection nor its file, so their number grows without bound while the table is empty.", "quantifier": "every history of the table in any environment, every request, every address, every way the steps of a put go and every sequence of its events", "why_tests_cant": "A leak shows only after many transfers, and a double close only on error paths a test has to provoke one by one; the claim covers every path and every history.", "anchors": ["sarwin/sarwin.go:699-730", "sarwin/sarwin.go:921-1086", "sarwin/sarwin.go:1216-1229", "client/client.go:290-506"]}
{"id": "C157", "title": "Peers see nothing of what the user does", "statement": "Two executions in which the same happens on the network, whatever lines are entered in either and wherever between the datagrams, with different settings and different files at the start: while both run, and with the shipped tables without further conditions, the peers known, the datagrams read, the frames handled, the replies made and sent and what every goroutine waits for are the same; the same can happen next on the network, and it ends one process exactly if it ends the other. So settings such as rxwilling never change an answer.", "quantifier": "all pairs of executions of any length with the same network events, all settings, files, lines, answers of the system", "why_tests_cant": "It is a statement about all pairs of executions (non-interference); a test compares two.", "anchors": ["saratoga/saratoga.go:166-424", "saratoga/saratoga.go:605-732", "sarwin/sarwin.go:2497-2521"]}
{"id": "C158", "title": "Different frames are different on the wire", "statement": "Two data, request, metadata, directory, status or beacon frames that are encoded have the same bytes exactly if they agree in every field as far as it is written: all of header, session, names, payload, checksum and identifiers, numbers modulo the width of the descriptor, times of a directory entry modulo 2^32, and the time stamp of a data frame that asks for one. So frames whose numbers fit and whose names have no NUL have the same bytes only if they are the same. (The stamp of a status frame is never written.)", "quantifier": "every two frames of a type that Encode accepts, any flag table", "why_tests_cant": "Injectivity speaks of every pair of frames; a test compares a few.", "anchors": ["beacon/beacon.go:200-245", "data/data.go:214-267", "dirent/dirent.go:129-194", "metadata/metadata.go:242-266", "request/request.go:104-119", "status/status.go:148-235"]}
{"id": "C159", "title": "Peers do not disturb one another", "statement": "What the program answers a peer, and which frames of a peer it passes on, depends only on the datagrams that peer sent, not on what others sent or in which order it all arrived. How a peer is listed depends only on its own beacons and when they were handled.", "quantifier": "any two executions of listeners and main loop, any number of peers, any interleaving, any files", "why_tests_cant": "it compares all pairs of executions that agree on one peer and differ in anything else; a test runs one interleaving with a few peers", "anchors": ["saratoga/saratoga.go:166-424", "saratoga/saratoga.go:605-732", "beacon/beacon.go:344-385"]}
{"id": "C160", "title": "The user can take back a change of the settings", "statement": "Whatever command lines a user types, there are command lines that bring the settings back to what they were before. (Fails: txwilling starts as yes in the shipped configuration, and no command line sets it to yes again. Exactly the settings that have a value which can be typed can be brought back.)", "quantifier": "every settings state, every sequence of command lines", "why_tests_cant": "that no sequence of commands brings a value back speaks of all sequences; that some sequence always does speaks of all states", "anchors": ["sarwin/sarwin.go:1372-1403", "sarwin/sarwin.go:2169-2310", "sarwin/sarwin.go:2313-2354", "sarwin/sarwin.go:2408-2434"]}
{"id": "C161", "title": "Recording what was received stays cheap", "statement": "What one Add does is known from the number of ranges on record before and after it: its loop goes round after * (before + 2 - after) times (before times if one range remains), optimise calls itself as often as ranges were joined, and with k ranges joined and a ranges beginning after the end of the piece exactly k * (2a + k - 1) / 2 elements are moved. So m calls with never more than M ranges on record go round at most 2*m*M times and move at most m*M elements, with at most M+1 calls of optimise inside one another; pieces in order cost one round each and move nothing; the square of m is reached when all pieces are apart.", "quantifier": "every finite sequence of Add calls, every tie order of the sort, every bound on the number of ranges", "why_tests_cant": "A bound on the work of a function that calls itself from inside its loop is over all lists; a test measures the time of a few.", "anchors": ["holes/holes.go:35-38", "holes/holes.go:43-65", "holes/holes.go:71-87"]}
{"id": "C162", "title": "What is reported as missing is what has to be sent again", "statement": "For a receiver that stores pieces of a file with FileWrite and records them with Add, more pieces complete the file exactly if they bring every offset in the holes that Getholes reports and every offset beyond all that was received; the same holds for the holes that any reader of any frame of its WriteStatus report (without timestamp) finds in it. What is on record stays on record, and at most as many rounds bring something new as the file has bytes, so sending again what is missing ends if something of it gets through each time.", "quantifier": "every file, every sequence of its pieces in any order, with repetitions and failed writes, every further sequence of pieces, every flag text without timestamp whose descriptor fits, every number of rounds", "why_tests_cant": "That nothing less than the reported holes is enough and nothing more is needed is over all later pieces; a lost byte at the edge of a hole shows only for some lengths and orders.", "anchors": ["holes/holes.go:71-111", "fileio/fileio.go: FileWrite", "sarwin/sarwin.go: WriteStatus", "status/status.go: Encode, Decode"]}
{"id": "C163", "title": "What the user says about willingness governs what peers get", "statement": "After the user has typed rxwilling off or txwilling off, a running program does not grant a peer's request that needs the local host to receive or to send files, and does not delete files for a peer; in general what the user set decides which requests are granted.", "quantifier": "every two executions of the program with any settings at the start, any settings commands typed in between, and the same network events", "why_tests_cant": "That a setting has no influence at all is a statement about pairs of executions of any length; a test compares a few.", "anchors": ["trans/trans.go:50-233", "sarwin/sarwin.go: cmdRxwilling, cmdTxwilling", "saratoga/saratoga.go:605-732"]}
{"id": "C164", "title": "A frame cut short is not taken for a whole one", "statement": "No proper prefix of the bytes of a frame that is accepted is accepted as a frame; in particular the listener, which reads into a buffer of limited size, never works on part of a datagram, and no data or status frame that the program makes for its MTU is too long for a listener with the same MTU. (The decoders do accept prefixes; proved is exactly which, what is read from them, and that it is true as far as it goes. The listener's part holds in full.)", "quantifier": "every frame of each of the five kinds and every directory entry that is accepted, every place of the cut, every table; every datagram and MTU", "why_tests_cant": "The cut may be at any byte of any frame, with every width of the numbers and with or without time stamp; one wrong bound in a decoder shows only for one of them.", "anchors": ["data/data.go:152-211", "request/request.go:122-145", "beacon/beacon.go: Decode", "metadata/metadata.go:269-288", "dirent/dirent.go:197-249", "status/status.go:238-322", "saratoga/saratoga.go:166-202"]}
{"id": "C165", "title": "Everything read is handled in the end", "statement": "In every infinite execution of the running program with the shipped tables in which select is fair (a case that stays ready for ever is taken), every frame in a datagram that was read is eventually handled as coming from its sender, every reply a listener holds out is eventually taken, each listener comes back to reading again and again, the sender of every beacon read is eventually on the list of peers for good, and no request is ever among what was read (each one ends the process). (Without the promise of select it can be otherwise: one listener may hold out a beacon for ever.)", "quantifier": "every infinite fair interleaving of two listeners, main loop and user, every datagram", "why_tests_cant": "It is about executions without end and about what happens eventually; a test stops after some time and sees a few interleavings.", "anchors": ["saratoga/saratoga.go:166-424", "saratoga/saratoga.go:605-732"]}
{"id": "C166", "title": "Every command entered gets its turn", "statement": "In every infinite execution of the program with its commands at the same time, in which the scheduler and the lock are fair (whoever holds the lock gets on; a goroutine that again and again could begin does): the command of every line entered that names a command is carried out in the end; a beacon command sends all its beacons and gives the lock back, with nothing of another beacon command in between; and if from some time on nothing is entered, all commands are done some time later, and from then on the settings are, for ever, what the commands entered make, in some order, of those at the start, while no transfer changes and no beacon is sent. (Without the promise of the lock it can be otherwise: others may get it first again and again.)", "quantifier": "every infinite fair execution, every machine, settings and line", "why_tests_cant": "It is about what happens eventually in executions without end, for every order in which goroutines get the lock; a test stops after some time and sees one schedule.", "anchors": ["sarwin/sarwin.go:1276-1366", "sarwin/sarwin.go:2497-2521"]}
{"id": "C167", "title": "What peers advertise does not decide what the user can start", "statement": "In every state, a line entered does the same whatever peers have sent before: with any other peers heard, whatever they told of their willingness, free space and descriptors, the same transfers are started, with the same session numbers, the settings, beacons, exit level, files and what is put on the wire are the same, the process ends in both cases or in neither, and what peers have told is not touched. In particular a transfer is started with a peer that has told that it receives nothing and has no space.", "quantifier": "every state of the program, every other network side with the same files, every line and every answer of the system", "why_tests_cant": "It compares the same line in two arbitrary states; a test compares a few.", "anchors": ["sarwin/sarwin.go:921-983", "sarwin/sarwin.go:1890-1927", "beacon/beacon.go:344-385"]}
{"id": "C168", "title": "Programs that keep sending beacons are found", "statement": "Any number of programs with the shipped tables on a network that runs for ever and loses, delays, doubles and reorders datagrams: whoever again and again sends beacons (of a size that listeners look at) to an address that a program hears is listed by that program in the end and from then on for good, if the network does not lose all of them, the program does not end and its select is fair, whatever is entered at any program. Each single datagram that arrives has this effect, and any finite number of programs come to list each other. Such executions exist.", "quantifier": "every number of programs, every infinite execution, every loss pattern that lets some datagrams through", "why_tests_cant": "It is about executions without end of several programs with arbitrary loss; a test runs two of them for a while on a network that works.", "anchors": ["saratoga/saratoga.go:166-424", "saratoga/saratoga.go:605-732", "sarwin/sarwin.go:699-729", "beacon/beacon.go:305-385"]}
{"id": "C169", "title": "Sending again what is reported missing ends", "statement": "A receiver stores the pieces of a file that come and reports what it misses; a sender sends in each round every byte some report, however old, names as missing, and what lies beyond it. If a byte that is sent in infinitely many rounds comes at least once, then from some round on the file is complete on record and on disk; if no byte is lost k times in a row it is complete after k rounds. It is complete in the end exactly if every byte comes in some round, and a report names nothing and nothing lies beyond it exactly when the file is complete.", "quantifier": "every file that is not empty, every infinite sequence of rounds, every way of cutting the file into pieces, every loss, doubling, order and partial write", "why_tests_cant": "Executions are infinite and the ways of losing frames unbounded.", "anchors": ["holes/holes.go:71-111", "fileio/fileio.go: FileWrite", "sarwin/sarwin.go: WriteStatus", "status/status.go: Decode"]}
{"id": "C170", "title": "What a program sends is decided by its user alone", "statement": "In any two executions of any two networks, if the lines entered at a machine with the same configuration are the same, it sends the same packets to the same addresses in the same order, whatever datagrams arrive there, whatever other machines do and whatever is on its disk; if the lines of one are the first of the other's, so are the packets. A machine where no beacon command is entered sends nothing, whatever is sent to it.", "quantifier": "all pairs of executions of networks of any size, any length, any files, any traffic", "why_tests_cant": "It is a statement about all pairs of executions (non-interference); a test compares two.", "anchors": ["saratoga/saratoga.go:605-732", "sarwin/sarwin.go:575-607", "sarwin/sarwin.go:699-729", "sarwin/sarwin.go:1276-1366"]}
{"id": "C171", "title": "Damage to a file on its way is told by its checksum", "statement": "No reader notices damage to the payload of a data frame: what it reads has the header, session, place and time of the frame and the damaged bytes. But if all wrong bits that arrive, in any frames and any number of copies, lie within 32 adjacent bits of the file, then what is stored once every frame has come has the length of the file sent and has the crc32 announced in its metadata exactly if it is that file.", "quantifier": "every file, MTU, flag text, clock, order of arrival, repetition, failed write and damage to payloads within a window of 32 bits", "why_tests_cant": "A claim over all damages and all ways of arriving; a test damages a few bytes.", "anchors": ["client/client.go: senddata", "data/data.go:152-267", "fileio/fileio.go:118-132", "metadata/metadata.go: New"]}
{"id": "C172", "title": "What the program keeps was asked for", "statement": "In every execution the transfers in the table are, in order, among those the lines entered asked for, each by a line of its own with its command, file and peer; no datagram puts one there. With the shipped tables a running program keeps no transfer for a peer and at most one list entry for each datagram that arrived; and if no other program touches the disk there is at most one thing more on it for each line that asked for a file to be fetched. When commands run at the same time the table still holds at most one transfer for each line that named one of these commands.", "quantifier": "every machine, every execution of any length, every order of datagrams, lines and steps", "why_tests_cant": "A claim over all executions; a test enters a few lines and looks at the table once.", "anchors": ["sarwin/sarwin.go:921-986 NewInitiator", "sarwin/sarwin.go:1578-2076 commands that start transfers", "beacon/beacon.go:344-385 NewPeer", "fileio/fileio.go:30-74 FileOpen", "trans/trans.go:50-233 AddRxTran"]}
{"id": "C173", "title": "Beacons are of a size that listeners look at", "statement": "With the shipped tables, whatever is entered at any number of programs: every beacon on the wire has a length of 4 bytes for the header, 0, 2, 4 or 8 for the free space, and those of the local address of the connection, a dash and the process number in decimal. So if the local addresses that the system tells have from 2 to 63 bytes, as all texts of addresses with ports have, every beacon is of a size that listeners look at wherever the interface takes 146 bytes at once, and C168 holds with nothing asked of sizes.", "quantifier": "every number of programs, every execution, every process number, every local address of these lengths", "why_tests_cant": "A test sees the length of a few beacons with one process number and one address.", "anchors": ["sarwin/sarwin.go:699-729 sendbeacons", "beacon/beacon.go:43-134 New", "beacon/beacon.go:200-245 Encode", "saratoga/saratoga.go:166-204 listen"]}
{"id": "C174", "title": "Networks of programs whose commands run at the same time", "statement": "Any number of programs on a network that loses, delays, doubles and reorders datagrams, with lines entered anywhere, their commands running at the same time in any order and beacons leaving one by one in between: the programs are as after an execution with one command after another (C131), in which the lines of each machine are those entered there in some order without those whose commands have not begun, the same happens inside the machines, and each machine has sent, in the same order, what it has sent here and what its beacon command under way has still to send. With the shipped tables only beacons travel, no program handles anything else or hangs, no file moves, every entry of every peer table tells the settings its sender had when the beacon left, and no program can end another.", "quantifier": "every number of programs, every execution, every interleaving of goroutines, datagrams and lines", "why_tests_cant": "The interleavings of goroutines of many machines with datagrams in flight are without number.", "anchors": ["sarwin/sarwin.go:2497-2521 Run", "sarwin/sarwin.go:699-729 sendbeacons", "sarwin/sarwin.go:1276-1366 cmdBeacon", "saratoga/saratoga.go:605-732 main loop", "beacon/beacon.go:344-385 NewPeer"]}
{"id": "C175", "title": "Who keeps entering beacon commands is found, with commands running at the same time", "statement": "In a network of programs that runs for ever, with the commands of every program running at the same time: at a program that goes on every goroutine that waits begins in the end; the beacon command that has the lock sends all it has to send and gives the lock back; a beacon that arrives is handled in the end and its sender listed from then on. So if at one machine `beacon word` is entered again and again, with a word that means an address heard at another machine, that machine lists the sender in the end and for good, provided both programs go on, scheduler, lock and select are fair, the system does its part, the settings of the sender are legal and ask for a beacon, the local addresses have a usual length, and the network does not lose all the beacons.", "quantifier": "every number of programs, every infinite fair execution, every interleaving and loss", "why_tests_cant": "A statement about the end of executions that go on for ever; a test sees a finite part of one schedule.", "anchors": ["sarwin/sarwin.go:1276-1366 cmdBeacon", "sarwin/sarwin.go:699-729 sendbeacons", "sarwin/sarwin.go:2497-2521 Run", "saratoga/saratoga.go:605-732 main loop", "saratoga/saratoga.go:158-330 listen", "beacon/beacon.go:344-385 NewPeer"]}
{"id": "C176", "title": "A network at which nothing more is entered comes to rest", "statement": "In a network of finitely many programs that runs for ever, with the commands of every program running at the same time: if from some time on nothing is entered anywhere, and scheduler and lock are fair at the programs that go on, then from some time on no command does anything at any machine, nothing more leaves, and at every program that goes on no command waits and none holds the lock; all that still happens is that datagrams sent before arrive and that something happens inside a machine. If all programs go on, they are then as after an execution with one command after another in which at every machine exactly the lines entered there were entered, in some order, and in which each machine sent exactly what it has sent.", "quantifier": "every finite number of programs, every infinite execution with these fairness conditions, every interleaving", "why_tests_cant": "That nothing happens any more is a statement about all the time to come, over all schedules of many machines.", "anchors": ["sarwin/sarwin.go:2497-2521 Run", "sarwin/sarwin.go:699-729 sendbeacons", "sarwin/sarwin.go:1276-1366 cmdBeacon", "saratoga/saratoga.go:605-732 main loop"]}
{"id": "C177", "title": "In the end a peer table shows how things are now", "statement": "In a network that runs for ever, with the commands of every program running at the same time: if beacon commands to an address heard at another machine are entered again and again, then that machine lists the sender in the end and for good, and whatever time is named, from some later time on the entry shows only beacons that left after it: name, free space and settings of the sender when it left. So if the settings of the sender stay as they are, the entry shows these settings in the end and for good. Datagrams may be lost, doubled, reordered and delayed, as long as not all are lost and none is on its way for ever; until then a beacon that was overtaken is believed.", "quantifier": "every number of programs, every infinite execution with these fairness conditions, every interleaving, every loss, delay, doubling and reordering, every point in time", "why_tests_cant": "That an entry is never wrong again is a statement about all the time to come; which beacons are still on their way when the settings change depends on the network.", "anchors": ["sarwin/sarwin.go:699-729 sendbeacons", "beacon/beacon.go:344-385 NewPeer", "saratoga/saratoga.go:605-732 main loop", "saratoga/saratoga.go:166-433 listen"]}
{"id": "C178", "title": "Programs that are ended and started again", "statement": "Any number of programs run on a network, each of which may be ended at any moment, also in the middle of a command, and started again, with another configuration and with files that were changed meanwhile. To the others a program that is started again is like another program: every execution with restarts, finite or not, is an execution without restarts of a network in which every run of every program is a machine of its own. So only beacons travel, no file moves, and what the peer tables show is what some run of the sender told. A program that has forgotten its peers finds them again: if from some time on two programs are not ended and the one keeps entering beacon commands to an address heard at the other, the other lists it in the end and for good, however often the rest are started again.", "quantifier": "for every number of programs, every finite execution and every execution without end, with any number of restarts anywhere, and datagrams lost, delayed, doubled and reordered; for the last part if scheduler, lock and select are fair and the network does not lose all beacons", "why_tests_cant": "a test restarts one program at one moment; the claim covers every moment of every interleaving of several programs, and executions without end", "anchors": ["saratoga/saratoga.go:439-606", "saratoga/saratoga.go:605-732", "sarwin/sarwin.go:575-607", "sarwin/sarwin.go:1276-1366"]}
{"id": "C179", "title": "Programs that are started again show themselves as they are now", "statement": "In a network in which programs are ended and started again with other configurations: if from some time on two programs are not ended and the one keeps entering beacon commands to an address heard at the other, then from some time on the entry of the sender at the other shows a beacon of the run that goes on and none of an earlier run, however long datagrams of earlier runs were on their way. If its settings do not change any more, the entry shows these settings in the end and for good. A restart alone tells nobody: until a beacon of the new run arrives the entry shows the old configuration.", "quantifier": "for every number of programs and every execution without end with any number of restarts anywhere, datagrams lost, delayed, doubled and reordered; if scheduler, lock and select are fair, the network does not lose all beacons and none is on its way for ever", "why_tests_cant": "a test sees one delayed datagram and one restart; that no old entry stays for ever is a statement about executions without end", "anchors": ["saratoga/saratoga.go:439-606", "saratoga/saratoga.go:605-732", "sarwin/sarwin.go:575-607", "sarwin/sarwin.go:1276-1366", "beacon/beacon.go:344-385"]}
{"id": "C180", "title": "Strangers on the network cannot move a program", "statement": "On a network on which, besides the programs, strangers send whatever they like under whatever source address: nothing that is received makes a program send anything, changes a setting, a transfer of its users or a file, or has any part in how its commands get on; what the programs send is what they would send if no datagram arrived anywhere, and it is beacons only. What is listed under an address from which no stranger has sent is true; what is listed under another is what a program or the stranger has said. A program that its own user does not end goes on, unless a stranger sends it a datagram of the known kinds that end a listener or the main loop.", "quantifier": "for every number of programs, every sequence of lines, commands, deliveries and datagrams of strangers, with any bytes, source, time and order", "why_tests_cant": "a fuzzer sends some datagrams to one program; that no sequence of datagrams to any of the programs moves them is a statement about all sequences, between all steps of all commands", "anchors": ["saratoga/saratoga.go:166-424", "saratoga/saratoga.go:605-732", "sarwin/sarwin.go:699-729", "sarwin/sarwin.go:1276-1366", "sarwin/sarwin.go:2497-2521"]}
{"id": "C181", "title": "Programs find each other in spite of strangers", "statement": "On a network on which strangers send whatever they like for ever: a program whose user keeps entering beacon commands to an address heard at another machine is listed there in the end and for good, and again and again its entry is true, that is, shows the name, free space and settings that a program of the network sent from that address, even if strangers keep sending beacons under that address. What users and commands do, and what is put into the air, is at every time what it is in an execution without end in which nothing is received.", "quantifier": "for every number of programs and every execution without end, with any datagrams of strangers at any times, in which the two programs go on, scheduler, lock and select are fair, the system does its part and the network does not lose all the beacons", "why_tests_cant": "a test sees a finite piece of one execution; that no flood of foreign datagrams can keep a beacon from being listed is a statement about all executions without end", "anchors": ["saratoga/saratoga.go:166-424", "saratoga/saratoga.go:605-671", "beacon/beacon.go:305-385", "sarwin/sarwin.go:699-729", "sarwin/sarwin.go:1276-1366"]}
{"id": "C182", "title": "Strangers keep no command from its turn and no network from its rest", "statement": "On a network on which strangers send whatever they like for ever: the beacon command that has the lock sends all it has to send and gives the lock back; at a program that goes on every command entered begins in the end, and a beacon command then sends all its beacons. If from some time on nothing is entered anywhere, then from some time on no command does anything and nothing more leaves any program, and at the programs that go on all commands are done, although strangers go on sending.", "quantifier": "for every number of programs and every execution without end, with any datagrams of strangers at any times, in which scheduler and lock are fair", "why_tests_cant": "a test that floods a program for a while shows neither that a command waits for ever nor that it does not; it is a statement about all executions without end", "anchors": ["saratoga/saratoga.go:166-424", "saratoga/saratoga.go:605-732", "sarwin/sarwin.go:699-729", "sarwin/sarwin.go:1276-1366", "sarwin/sarwin.go:2497-2521"]}
{"id": "C183", "title": "Programs that are ended by strangers and started again", "statement": "On a network on which strangers send whatever they like, also what ends a program, and programs are ended and started again at any moment: every execution, finite or not, is one without restarts of a network with strangers in which every run of every program is a machine of its own. Only beacons travel and no file moves. What a peer table shows is what some run of a program told from that address, or what a stranger has said since this program was last started; a program goes on unless something that has happened since then ends it. If from some time on two programs go on and the one keeps entering beacon commands to an address heard at the other, the other lists it in the end and for good, and again and again truly; at such a program every command entered begins and a beacon command sends all its beacons; however often the rest are ended and started again and whatever strangers send.", "quantifier": "for every number of programs, every finite execution and every execution without end, with any number of restarts and any datagrams of strangers anywhere; for the last part if scheduler, lock and select are fair and the network does not lose all beacons", "why_tests_cant": "restarts and strangers may come at any of infinitely many moments and in any order; that a program is found again in the end is a statement about executions without end", "anchors": ["saratoga/saratoga.go:166-424", "saratoga/saratoga.go:439-733", "sarwin/sarwin.go:699-729", "sarwin/sarwin.go:1276-1366", "sarwin/sarwin.go:2497-2521", "beacon/beacon.go:344-385"]}
{"id": "C184", "title": "Ended, started again, and at rest", "statement": "On a network on which strangers send whatever they like and programs are ended and started again: if from some time on nothing is entered at a machine and its program is not started again, then from some later time on none of its commands does anything, and if its program goes on all of them are done. If that holds of all machines the network comes to rest: nothing more leaves, and all that happens is that datagrams sent before or by strangers arrive or that something happens inside a machine, whatever has happened before.", "quantifier": "for every number of programs, every execution without end with any restarts before that time (and, for one machine, restarts of the others for ever) and any datagrams of strangers for ever, if scheduler and lock are fair at the programs that go on", "why_tests_cant": "that nothing more happens from some time on is a statement about executions without end; a test sees a finite part of one of them", "anchors": ["saratoga/saratoga.go:439-733", "sarwin/sarwin.go:699-729", "sarwin/sarwin.go:1276-1366", "sarwin/sarwin.go:2497-2521"]}
{"id": "C185", "title": "What strangers said does not last", "statement": "On a network on which strangers send whatever they like and programs are ended and started again: if from some time on two programs are not ended and the one keeps entering beacon commands to an address heard at the other, and strangers do not from then on send to the other under the sender's address, then from some time on the entry of the sender at the other shows a beacon that left a program of the network, later than any given time, and nothing a stranger has said. If the sender's settings do not change any more and are legal, the entry shows them in the end and for good. As long as strangers do send under that address they are believed.", "quantifier": "for every number of programs and every execution without end with any restarts and any datagrams of strangers (under other addresses for ever, under the sender's address before that time), datagrams lost, delayed, doubled and reordered; if scheduler, lock and select are fair, the network does not lose all beacons and none is on its way for ever", "why_tests_cant": "a test sees a few forged datagrams; that no forged entry stays for ever is a statement about executions without end and about all datagrams", "anchors": ["saratoga/saratoga.go:439-606", "saratoga/saratoga.go:605-732", "sarwin/sarwin.go:575-607", "sarwin/sarwin.go:1276-1366", "beacon/beacon.go:344-385"]}
{"id": "C186", "title": "The share of a disk that is used", "statement": "Usage answers a number exactly for disks that have a size. Of a disk of which not more is used than there is it is between 0 and 1, 0 exactly if nothing is used and 1 if all is; of two disks of one size the one with more used has no smaller answer; and the answer differs from the true quotient by at most a part in 2^22 of it, in spite of three roundings to float32. On windows what is free but not for the user counts as used. The answer is a share, not the percentage its comment promises.", "quantifier": "for all numbers of 64 bits that a system can answer, with the arithmetic of float32 (24 significant bits, to nearest, halves to even)", "why_tests_cant": "there are 2^128 pairs of used and size and rounding differs for each", "anchors": ["sarsys/sys_linux.go:49-51", "sarsys/sys_darwin.go:49-51", "sarsys/sys_windows.go:61-63"]}
{"id": "C187", "title": "Whose file it is, and its name", "statement": "Besides what C128 says, FileMeta tells owner, group and name of the place a path leads to, of a link itself and not of what it leads to. On linux and darwin owner and group are those the system has, different ones are told as different and none is negative; on windows both are 0. The name is the last one of the path, whatever is before it. It fails or panics exactly if it does for the other fields.", "quantifier": "for every tree with links, every owner of every place, every path and every system", "why_tests_cant": "a test runs as one user on one system and looks at a few files", "anchors": ["sarsys/sys_linux.go:74-80", "sarsys/sys_darwin.go:75-81", "sarsys/sys_windows.go:83-85", "fileio/fileio.go:173-208"]}
{"id": "C188", "title": "A copied directory entry is a copy", "statement": "Copy of a directory entry makes a new entry that says the same and changes no other. Whatever is assigned afterwards through other pointers the copy keeps saying what the entry said when it was copied, and whatever is assigned through the pointer to the copy changes no other entry. Value answers what the entry says. Of a nil pointer there is no copy: both panic.", "quantifier": "for every set of directory entries in memory and every sequence of later assignments to any of their fields", "why_tests_cant": "a test compares fields right after the copy; that nothing is shared is a statement about all later assignments", "anchors": ["dirent/dirent.go:27-35", "dirent/dirent.go:37-39", "sarwin/sarwin.go:1198"]}
{"id": "C189", "title": "The lists of flag names are complete", "statement": "FrameT lists exactly the names GoodT accepts, FlagD exactly the fields GoodD accepts, and FrameD of a field exactly the values ValidD accepts for it (none for a field that is not there), each once, in whatever order Go goes through the maps. Every name NameT answers is in the list of FrameT.", "quantifier": "for all tables, all fields and names, and every order in which maps are gone through", "why_tests_cant": "the order of maps differs from run to run and a test sees one of them", "anchors": ["sarflags/sarflags.go:843-849", "sarflags/sarflags.go:852-858", "sarflags/sarflags.go:881-893", "sarflags/sarflags.go:995-1007"]}
