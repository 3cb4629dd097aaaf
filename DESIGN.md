# Formal model of saratoga: design

Source: `/repo` (Go, read as text only). Model and proofs: Lean 4.33.0, `/verif/lean`.

## 1. Trusted base

* The Lean 4 kernel.
* Axioms: at most `propext`, `Classical.choice`, `Quot.sound` (Lean's standard ones). No axiom is
  added, there is no `sorry`/`admit`, no `native_decide`, no `bv_decide`. Section 6 lists what
  `#print axioms` shows per theorem group.
* The reading of the Go code: every model definition cites the file and lines it models. Nothing
  mechanically ties the Lean text to the Go text; that correspondence is by inspection.
* Assumed behaviour of what the code calls and what is not modelled line by line (section 3).

## 2. How the code is modelled

* Outcomes. A Go call ends in one of three ways: it returns (`Out.ret`), it calls `log.Fatalln`
  and the process exits (`Out.fatal`), or the runtime panics (`Out.panic`). A returned Go `error`
  is a value inside `ret`; its message text is reduced to a short tag. Methods that mutate their
  receiver return the receiver's final value also when they return an error, because callers use it.
* Numbers. `uint32/uint16/uint8/uint64` are `BitVec n` with Go's wrap-around and Go's shift rule
  (shift counts >= width give 0, which is also `BitVec`'s rule). `int` is 64 bit; where only
  comparisons happen it is `Int`, where conversions happen it is `BitVec 64`.
* Bytes are `BitVec 8`, byte slices and wire strings (file names, endpoint ids, payloads) are
  `List Byte`. Slice expressions are checked functions that panic when out of range. The frame
  handed to a decoder has capacity = length (`make([]byte, framelen)` in `listen`). That received frames may be
  treated as values although one buffer takes all datagrams is C143 (`Model/Memory.lean`).
* Flag text (`"descriptor=d16,eod=no"`) and table keys are Lean `String`s, i.e. valid UTF-8.
* Go maps are association lists with distinct keys; code that iterates over a map is modelled on a
  list and theorems quantify over all permutations of it where the order could matter.
* `sort.Slice` is any sorted permutation (the real one is unstable).
* The flag tables are a parameter (`Tables`); `shipped` is the content of `saratoga/saratoga.json`.
* Goroutines and channels: a transition system, one rule per atomic step, theorems over all
  reachable states.
* Operating system: a file system model (paths to nodes) and clock, working directory, statfs
  results as parameters.
* Dates are computed as Go's `time` package does, from the year 1 on; the seconds near 2^63, where it
  overflows, are not modelled.

## 3. What is not modelled

Text layout of line editing prompts wider than the command window, and the inside of `gocui` (a window is its place, order and name; a terminal interprets
colour sequences only), the inside of `net` (a host is what its calls answer: interfaces, groups, sockets, names),
the checksums `md5` and `sha1` (parameters with their digest length; `crc32` is in `Model/Crc.lean`), `server/server.go` (entirely commented out),
of `client/client.go` what no program of the repository reaches but for `senddata`, `readstatus`, `Doclient`, `cput`, `cputrm` and `cputblind`; the permission bits of files and kinds other than directory / regular / pipe / link; the Insert key of the window library's editor.
The whole program (`Model/Program.lean`) runs a command in one step, at its line; `Model/Busy.lean` lets each command begin later and in any order, with `beacon` holding the lock act by act, and commands that overlap step by step are in the models of C106 and C108; in one step as well are the commands of the program at its keyboard (`Model/Desk.lean`), where output to the windows comes in any amount at any time. `Model/Watch.lean` follows the lines of the listeners and the main loop to the windows; those of commands are left out there. Several programs (`Model/Network.lean`) meet in the air only: what one puts there may arrive at any other that hears the address, any number of times, in any order, or never; which machine hears which address and the source address of each connection are free. `Model/Crowd.lean` is the same with the programs of `Model/Busy.lean`.
Executions without end occur only in C165, C166, C168, C169, C173, C175, C176, C177, C178, C179, C181, C182, C183, C184 and C185. What the Go runtime promises is there a hypothesis of the theorems, not part of the model: `Fair` (a `select` case that stays ready is taken; `SelectFair` in C168; the same per machine in C175 to C179 and C181 to C185: `SelectFairAt`, `HolderFairAt`, `LockFairAt`, `LosesSomeAt`), `HolderFair` (sends return and sleeps end) and `LockFair` (a goroutine that again and again could get the lock does; `sync.Mutex` serves a waiter first that has waited for a millisecond). That the network of C168 does not lose everything is the hypothesis `LosesSome`, and for the rounds of C169 `FairLoss`. For C177, C179 and C185 it is also a hypothesis that every copy still on its way in the end leaves the network, delivered or lost (`Passes`).

## 4. What is proved per property

Status: *proved* = as stated in `properties.jsonl`; *partial* = the code contradicts the statement (or part of
it): a `Cxx_counterexample` theorem has the witness and `_partial` theorems what does hold, usually an exact
characterisation. Every property is expressible; none is left out.

| id | status | model | how |
|----|--------|-------|-----|
| C01 | proved | `Holes`: remove, optimise, Add; sort is any sorted permutation | induction over the history; every merge preserves membership |
| C02 | proved | same | invariant by induction; optimise ends with a separated list |
| C03 | proved | same | canonical lists are determined by their members, then C01 |
| C04 | proved | Getholes | structural induction over canonical lists |
| C05 | proved | same | from C01-C03 |
| C06 | partial | `HolesHeap`: slices as (array, length, capacity) over a heap | disagrees: Add writes into the old array exactly when there is spare capacity and the range is not empty (`C06_kept_iff`); refinement of the heap version to the list version |
| C07, C08 | proved | Get/Set, GetD/SetD, GetT/SetT on `BitVec` | bit extensionality, symbolic position and width |
| C09 | proved | `shipped` tables | `decide` over the whole table, lifted by lemmas |
| C10 | proved | GetStr etc. on permuted tables | distinct option numbers make the match unique |
| C11 | partial | New of five frames | induction over the flag list; specification = last assignment per field. Disagrees for data (`transfer`) and beacon (`freespaced`) |
| C12 | partial | same | disagrees: exact classification of outcomes |
| C13 | proved | strings.Split/Replace, AddFlag, FlagValue, ReplaceFlag | list lemmas on split and join; ReplaceFlag on empty text panics (stated) |
| C14 | proved | Setglobal, then New | induction over the settings, any order |
| C15 | partial | ReadConfig on parsed JSON values | permutation lemmas per map loop; disagrees only in which error is reported |
| C16 | partial | CopyCliflags, on values and on a heap of maps | disagrees: two fields |
| C17-C19 | partial | timestamp New/Put/Get | exactly which come back; arithmetic on seconds and nanoseconds; disagree: posix32_32 before 1970, localinterp |
| C20 | partial | data Encode/Decode | exactly which come back; byte list calculus; disagrees on one shape of empty frame |
| C21 | partial | request Encode/Decode | exact result for every name; disagrees for non ASCII |
| C22 | partial | dirent Encode/Decode | exact; disagrees for d64 sizes from 2^32 and non ASCII |
| C23, C24 | C23 proved, C24 partial | metadata Encode/Decode | C22 composed; C24 disagrees |
| C25 | partial | status Encode/Decode | exactly which come back (stamped ones never); holes by induction; disagrees with timestamps |
| C26 | proved | beacon Encode/Decode | exactly which come back; byte list calculus |
| C27 | partial | encoders | disagrees; exact value modulo 2^w |
| C28-C32 | partial | decoders on arbitrary bytes | disagree; the exact sets of crashing frames |
| C33 | partial | decoders on used receivers | disagrees for data, request, status; exact |
| C34 | proved | beacon New over statfs answers | case analysis over the free space |
| C35 | partial | metadata New over a file system | disagrees when two path rules name different files |
| C36, C37 | proved | NewPeer | invariant; refinement to the map of last beacons |
| C38 | partial | NewPeer split at its lock | disagrees: interleaving witness . Exactly: `C38_bound`, `C38_attained`: as many entries as calls and no more, by a potential that no step raises. |
| C39 | proved | AddRxTran | decision table, exhaustive case analysis |
| C40 | partial | same | disagrees on the shipped tables |
| C41, C43, C44 | C41 partial, C43 proved, C44 partial | listeners, main loop, channels as a transition system | invariants over all executions; C41, C44 disagree |
| C42 | partial | listen on one datagram | disagrees; exact set |
| C45 | proved | newsession | induction over calls; `reused_iff` at the wrap; lock machine |
| C46, C47 | C46 proved, C47 partial | transfer table | invariant; C47 disagrees, exact effect |
| C48, C49 | partial | WriteStatus, stpaylen | disagree; exact frames, exact budget |
| C50-C52 | C50 partial, C51 partial, C52 proved | settings commands | C50 disagrees for txwilling; C51 for some queries; effect theorems per command; invariant |
| C53 | partial | Do and the waiting goroutine | disagrees; every execution stays blocked . Exactly: `C53_returns_iff`. |
| C54 | partial | Run, Lookup of the command | disagrees; exact |
| C55, C58 | partial | fileio on a file system model | disagree; what holds under plain names |
| C56 | proved | ReadAt/WriteAt on file contents | list calculus |
| C57 | proved | pieces written in any order | induction over the history, order independent |
| C59, C60 | proved | sarnet; the peers of the transfer commands | filter law; exact classification |
| C61 | partial | beacon New, Encode, listener, main loop | composition of C14, C26, C43, C36 . Exactly: `C61_learns_iff`: exactly beacons of a size listeners look at. |
| C62 | proved | encoders | byte layout spelled out in the statements |
| C63, C64 | partial | FileOpen, FileDelete | disagree (double prefix) |
| C65 | partial | main loop step | disagrees; exact |
| C66 | proved | main loop over any execution | refinement of the peer table to the beacons taken |
| C67 | proved | NewInitiator | invariant over histories below the wrap |
| C68 | partial | cmdRmtran | disagrees; exact |
| C69 | partial | NewResponder | disagrees on shipped tables |
| C70 | partial | Lookup, Change | disagrees (copy) |
| C71 | partial | NewInitiator when dialling fails | disagrees . Exactly: `C71_starts_iff`. |
| C72 | partial | prompt handling | disagrees for prompts with a colon . Exactly: `C72_typed_iff`: exactly the prompts without colon. |
| C73, C74 | partial | transfer commands | disagree; exact listings and messages |
| C75, C76 | partial | Make, New | disagree in parts; exact |
| C77 | partial | Print, ShortPrint (only whether they exit) | disagrees; exact |
| C78-C81 | C78 proved, C79 partial, C80 proved, C81 partial | ReadConfig | member by member; C79, C81 disagree; C80 over all permutations |
| C82-C86 | C82 partial, C83 partial, C84 partial, C85 proved, C86 partial | cmdBeacon, sendbeacons | composition with C61; histories of commands; C82-C84, C86 disagree in parts |
| C87 | partial | WriteStatus, Status.Decode | composition of C04, C48, C25; disagrees when stamped . Exactly: `C87_learns_iff`: exactly without a timestamp. |
| C88 | partial | Data.New, Encode, Decode | composition of C76, C17, C20; disagrees for empty d16 frames and localinterp . Exactly: `C88_time_iff`. |
| C89 | partial | NewInitiator, FileOpen | composition with C55; disagrees |
| C90 | proved | senddata, maxpaylen | invariant of the loop over flag text, position and counter; no room and negative room separately; an invariant on the words said, for all texts, files and faults |
| C91 | partial | maxpaylen, filedescriptor, Data.Encode | induction over the text; composition with C62; disagrees without a descriptor . Exactly: `C91_fits_iff`: two bytes too long exactly if no descriptor is named. |
| C92 | partial | senddata, Data.Encode, Data.Decode, FileWrite, Holes.Add | composition of C90, C20 and the storage properties; disagrees about the end mark |
| C93 | partial | readstatus (the hole loop) | induction over the loop; disagrees for every hole |
| C94 | partial | cput, cputrm | induction over the events; disagrees |
| C95 | proved | cmdHelp, cmdUsage over any map order and any sort | entries lifted through the permutation; sorted lists are unique |
| C96 | partial | GetLine, cmdExit | through C72 and C54; disagrees |
| C97 | partial | the `?` branch of every command | case by case on the model; disagrees for four commands |
| C98 | partial | cmdClear; clear commands as goroutines over the current window | induction over the names; invariants of all interleavings; disagrees for two at a time |
| C99 | partial | cmdPeers with its widths, `%Ns` and `len`, and Timestamp.Print | fold lemmas on the widths; with C66 and C118 for reachable states; disagrees for d128 |
| C100 | partial | Info, FmtPrint | as C99; disagrees for every table |
| C101 | partial | Screen: window order, current window, packet flag; the key handlers | invariant over all key sequences; the finite set of screens is decided whole; disagrees for ^P in the packet window . Exactly: `C101_current_iff`. |
| C102 | partial | setcolour with its tables, fprintf, fprintln; a terminal as specification | all names decided whole, induction over the text; disagrees for text with escapes . Exactly: `C102_shown_iff`: exactly texts without escape; `C102_alike`: which colours look alike. |
| C103 | partial | Printer: texts waiting in goroutines, main loop | permutation invariant over all schedules; disagrees for the order . Exactly: `C103_any_order`: every order is possible. |
| C104 | proved | Layout rectangles | linear arithmetic over all sizes |
| C105 | partial | main up to its loop, over a host (files, interfaces, sockets) | case by case on main; disagrees for relative directories |
| C106 | partial | LockWorld: goroutines at their program counters, the lock Climu, map writes, CopyCliflags entry by entry | invariant over all interleavings, refinement to the serial run; disagrees for the copy |
| C107 | partial | BeaconWorld: beacon commands at their program counters under Climu | invariant over all interleavings, refinement to the serial run; disagrees for off |
| C108 | partial | TableWorld: readers (Info, Match) index by index, additions and removals | invariant over all interleavings of additions; disagrees for removals |
| C109 | partial | Send of the five frames over UDPSocket (dialled or listening, answers of the operating system) | exact characterisation of success, composed with the round trips; disagrees for dialled connections |
| C110 | partial | BackSpace, CursorLeft, CursorRight, promptlen, a fresh prompt, over one line of the window | invariant over all key sequences, refinement to an editor with text before and after the cursor; disagrees for characters of more bytes and for paddings under three |
| C111 | partial | the questions of the settings commands | answers injective in the setting; disagrees for timeout metadata . Exactly: `C111_tells_iff`. |
| C112 | partial | CursorDown, CursorUp, gotolastrow, Clearwin on Pane (numbers of lines and rows, origin, cursor) | invariant over all sequences of prints, keys and switches; disagrees in empty windows |
| C113 | partial | the same, with the automatic scrolling of the library | reachability of every line by induction on the distance; disagrees for windows that scroll by themselves (exact characterisation) |
| C114 | partial | Clearwin, then prints | exact characterisation of the rows seen; disagrees for windows scrolled before |
| C115 | partial | gotolastrow | invariant of all uses of the window; disagrees for the packet window and after clear |
| C116 | partial | GetLine, prompt, editing and arrow keys over all lines of the command window (Console) | induction over the list of commands and over the characters of each; disagrees for commands reaching the last column |
| C117 | partial | the handlers of Settings, TranCmds, Help and Listing on all words | case analysis against the specification of what a line asks for (Orders, questions); disagrees for descriptor, timeout, peers, history, help and give |
| C118 | partial | Timestamp.Print with time.Unix and Format as in the Go library | the cycles of 400, 100, 4 and 1 years against a calendar summed up year by year and month by month; injectivity of the text piece by piece; disagrees for localinterp |
| C119 | partial | Doclient, clienthandler, cput, cputrm, cputblind with JoinHostPort, SplitHostPort and ResolveUDPAddr as in the Go library; parsing an address and looking up a name are any functions obeying two laws | the last colon and the first bracket of the text; disagrees for every peer |
| C120 | partial | NewDiskUsage, Free, Available, Size, Used of each system | arithmetic modulo 2^64; disagrees on windows |
| C121 | partial | OutboundIP with To4 and To16 | induction over the addresses; disagrees for IPv6 |
| C122 | partial | Print and ShortPrint of the six frames byte by byte; Sprintf of %d, %x, %s as in the Go library; the order of the properties of a directory entry is any order of its map | numbers and hexadecimal text are injective, a line ends where it ends; disagrees for a request name with an end of line |
| C123 | partial | Keybindings; SetKeybinding answers anything for every key | induction over the calls; disagrees: six of the eleven errors are dropped |
| C124 | proved | Print of a transfer; the text of a peer is any function | a cell ends at the first bar, the name is the last cell |
| C125 | partial | The four windows together: command window, three panes, who gets the keys, what each key calls; prints and clears arrive as events | invariant over all events that every window is drawn and the screen is sound, then case by case; the command window is simulated by its own model; disagrees for Ctrl-Space |
| C126 | partial | The six test programs, after the configuration is read; the file test as far as its second step; the global pointer to the settings as an optional directory | verdict of the flag text (C12), what it carries (C11), its stamp (C76), round trip (C20), printing (C77); disagrees for requests, metadata and files |
| C127 | proved | Network side, command line, settings, transfers and files in one state; a command runs from its line to its end in one step | the network side of an execution is an execution of its own model, so its invariants carry over; induction over all events for settings, table and session numbers; the end by cases, each settled by C42, C54, C65, C75 and C85 |
| C128 | partial | FileMeta on trees with symbolic links (name resolution with a link limit, refusals, working directory) | case analysis of name resolution; exact set of names it comes back on; link targets against an inductive specification; disagrees |
| C129 | partial | what NewInitiator prints, joined to what the nine handlers print | what is said compared with the table before and after, in both directions; case analysis of handlers and of the table scan; disagrees |
| C130 | partial | readstatus: one datagram, loop over reads, metadata and holes resent | case analysis of one read with the exact set survived, induction over the reads, composition with C87; disagrees |
| C131 | proved | any number of the programs of C127 and the air between them, which may lose, delay, double and reorder | refinement: each node runs as in C127 on datagrams of the air; invariant that the air holds only beacons built from the log; liveness by constructing the continuation |
| C132 | partial | the two goroutines of a put and its main loop as a machine with four channels of one place | invariant on what has been heard, measure that falls with each step, case analysis of states where nobody can get on, composition with C90 and C130; disagrees |
| C133 | proved | the listener, handler of requests and main loop of C38–C45 with every line they print | erasure lemma (without the lines: the older models), case analysis of one datagram, invariants over executions relating lines, datagrams read, packets handled and replies taken |
| C134 | partial | the same | invariant that announced addresses are those in the table (with C37); the line about transfers comes after a send nobody receives, so it is printed in no execution; disagrees |
| C135 | proved | `AddRxTran` with its lines | walk of the decision table of C39 with the line of each branch |
| C136 | proved | The windows (C125) and the running program (C127) in one state: a key that starts a command runs it, Ctrl-C leaves the loop of the windows and waits for the main loop | simulation: each execution projects to one of the program and one of the windows; for two executions both are compared with the run of the keys alone; session by C116, Ctrl-C by C65 |
| C137 | partial | The main loop (C41, C43) with transfers and files | case split on the frame for every table; invariant that a transfer in the table means the main loop is away from its `select`; stuck states stay stuck; disagrees |
| C138 | partial | The peer list in executions | one beacon per host, by induction over the hosts, with C65 and C66; the addresses of the list as a prefix in every step; disagrees |
| C139 | partial | The program at its keyboard (C136) with tables that let requests be answered | invariant that a handled request means the main loop is away from its `select`; disagrees |
| C140 | partial | The lines of C133 handed to `Update`, shown in any order until Ctrl-C | permutation invariant, composed with C133; disagrees on order |
| C141 | proved | `Model/Crc.lean`: table, update and sum of Go's `hash/crc32` with the polynomial of `fileio/checksum.go` | A round is linear over exclusive or and injective, so 32 bits enter without loss and later bits keep two numbers apart. The table is eight rounds. Two bits: the rounds come back to 1 only after 2^32-1 (divisors of 2^32-1, each checked by doubling the matrix of a round, lifted by a lemma). End to end with C14 and C35. |
| C142 | proved | `decode` then `encode` of the five frame models, from arbitrary bytes | every field read determines the bytes it came from (lemmas on readWord, readNum, getHoles, Timestamp.get); the pieces glue back to the frame. Where bytes are lost: lengths, NUL positions, and for stamped status frames a count of nonzero bytes. |
| C143 | proved | `Model/Memory.lean`: arrays of bytes, slices, `make`, `copy`; the round of `listen` on them; any number of listeners and the main loop | refinement to `listenFrame`: the frames held have their bytes in arrays that are not buffers, and only buffers are written again |
| C144 | partial | `Model/History.lean` on the command window of `Model/Console.lean` | disagrees: history prints that it is not implemented; what is kept: induction over the keys, for sessions with the lemmas of C116 |
| C145 | partial | `Model/Busy.lean`: the program with a goroutine for each line, begun in any order, and `Climu` held by `beacon` act by act | disagrees: a later line can get on first; partial: refinement to the program of C127 with the lines in some order, in the order entered when each command has begun before the next line; exit from any wait by induction on the goroutines that wait |
| C146 | partial | `Model/Ending.lean`: for each event and each start, in which goroutine and by which call the process ends, the exit status and whether deferred calls run | disagrees: `log.Fatal` skips `g.Close`, and Ctrl-C has status 1; exact: case analysis of every event and of every branch of the start; partial: status of failures of the start behind the configuration |
| C147 | partial | `Model/StartText.lean`: the texts `main` prints up to its loop, by place (output, log, window); errors of the system as given texts | disagrees: three failures do not say what is wrong; partial and exact: case analysis of every branch of the start next to the model of C105; the space by arithmetic modulo 2^64 |
| C148 | proved | `Model/Mutexes.lean`: the six mutexes; each function as its `Lock` and `Unlock` calls by path; goroutines as sequences of calls, any schedule; what is done between the calls is left out and assumed to end | invariant: held mutexes of each goroutine are in one order of all mutexes; progress by induction on that order; end by counting calls |
| C149 | proved | `Model/Holes.lean`: `Add`, `optimise`, `Getholes`, `Lenholes` | from C01 and C02: one point of each recorded range lies in a different range of any other list, by induction on the points; lengths by induction on the canonical list |
| C150 | proved | `New`, `Encode`, `Decode` of the five kinds and `listenFrame` | from C11 (the last value given to `frametype`), C62 (first bytes) and C42 (what the listener queues); decoded header and session by going through each `Decode` |
| C151 | proved | `Model/Timestamp.lean`: `New`, `Put`, `Get` | from C17: the numbers of a stamp are those of the time, less the epoch; order by arithmetic |
| C152 | partial | `Model/BeaconCmd.lean`: the acts of the command in order, texts, frames and pauses | disagrees: a multicast group that is no address is passed over in silence; partial and exact: the loop in closed form by induction on the number of beacons, the words by induction |
| C153 | proved | listeners, main loop and handler of requests of C38–C45, encoder and decoder of status frames | invariant counting replies against datagrams read; every reply is plain enough for the round trip of C25; composed with C42 |
| C154 | proved | `Model/Program.lean`: line entered, command, `newInitiator`, `fileOpen`; listeners and main loop of C38–C45 | every branch of a line entered followed to `fileOpen`, whose effect is on one place; network side by cases; runs by induction |
| C155 | proved | `Model/Settings.lean`, `Model/Program.lean` | induction on the lines with the exact effect of one line (C51); the running program by C127 |
| C156 | partial | `Model/Opened.lean`: the opening and closing calls of `NewInitiator`, `NewResponder`, `Remove`, `rmtran`, `sendbeacons`, `cput`, `cputblind`, each tied to the model of the function itself | cases over every way each function ends; histories of the table by induction; counterexample and a leak for every number |
| C157 | proved | `Model/Program.lean`: listeners, main loop and command line in one process | the network side without its files is a run of its own over the network events (induction over the execution); runs are functions of their events; requests by C65 |
| C158 | proved | the `encode` of every frame type (`Model/Data.lean` and so on) | the bytes are a concatenation of parts of known length (C62); each part is injective; exact equivalences and witnesses for what is lost |
| C159 | proved | `World.step`, `listenFrame`, `newPeer` (listeners, main loop, peer list) | Induction over executions: the replies and frames of an address are the image of the datagrams read from it; an entry is determined by the beacons it sums up (C36, C66). Both then compared between two executions |
| C160 | partial | `Model/Settings.lean`: the settings commands | every value a command line gives is on a list (cases over `Orders`); a setting is as before or has such a value (induction over the lines); the way back is built setting by setting, the kind of time stamp first because it also sets `reqtstamp` |
| C161 | proved | `Model/HolesWork.lean`: the loop, `remove` and the calls of `optimise` counted; `append` and `sort.Slice` are not | Induction along the recursion of `optimise`: every level of calls goes round exactly as often as ranges are left; the total by a potential (ranges on record); the lower bound on a family of histories |
| C162 | proved | `Holes.add`, `Holes.getholes`, `fileWrite`, `writeStatus`, `Status.encode/decode`; that a receiver stores and records each piece is the specification `storeAll`, the program has no such loop (C137) | Composition of C01, C04, C05, C57 and C87: offsets covered before and after; the rounds by counting offsets still missing |
| C163 | partial | `Program` (settings commands, network side), `addRxTran` | The code disagrees: two executions with the same network events and any settings have the same network side (induction over executions, C127), and a concrete run grants put, get and delete against the user's word; what is left by C137 |
| C164 | partial | `Data.decode`, `Request.decode`, `Beacon.decode`, `Status.decode`, `MetaData.decode`, `DirEnt.decode` on `take k` of accepted bytes; `listenFrame` | An equation for each decoder, by following its reads: each succeeds on the prefix exactly if it ends before the cut; the listener by `listenFrame_eq`; own frames by C91 and C49 |
| C165 | proved | `World.step` (listeners, main loop); infinite executions and fairness of `select` in `Spec/Forever.lean` | An offer stands until taken (case analysis over the steps), so with the main loop always at `select` (C41, C65) fairness takes it; then C43 and C66. With tables under which requests are answered it fails (`C165_other_tables`, from C41) |
| C166 | proved | `Model/Busy.lean`: goroutines of commands that wait, the holder of `Climu` and its acts, in executions without end | `C166_turn`, `C166_line`, `C166_beacon`, `C166_lock`, `C166_settled`: a waiting goroutine is followed by its place in the queue; the acts left are a variant, so the lock is free again and again; fairness (`HolderFair`, `LockFair`) is a hypothesis; with nothing entered the queue shrinks to nothing, and C145 gives the settings |
| C167 | proved | `Model/Program.lean`: a line in two states that differ in everything the network side keeps but the files | `C167_regardless`, `C167_ends`: relational, `enter_on` for every command; `C167_unwilling` is the witness: the same put with a peer that refuses, one that accepts and one never heard of |
| C168 | proved | `Model/Network.lean` in executions without end | `C168_heard`, `C168_found`, `C168_all`: each step of the network is a step of one program or none (`node_moves`), so what a listener holds out stays until it is taken (as in C165), and a handled beacon keeps its sender on the list (C66); fairness of `select` and of the network are hypotheses (`SelectFair`, `LosesSome`); `rounds_forever` builds an execution that meets all of them |
| C169 | proved | As C162, in rounds without end; the sender is any that sends what a report names (specification `Rounds`), the program has no such loop (C93, C137) | `report_covers` (C04, C87: what any reader of a report learns), then each byte that has not come is sent in every round, so fairness (`FairLoss`, `LossBelow`) brings it; the latest of finitely many rounds; disk by C57; `fiveRounds` meets all hypotheses |
| C170 | proved | `Model/Network.lean`: programs, their lines and what beacon commands put on the wire | `enter_user`, `emits_user`: settings and beacon state after a line, and what it sends, are functions of those before; `packets_from`: induction over the execution makes the packets of a machine a fold over its lines; then two executions are compared |
| C171 | proved | `senddata`, data frames, `FileWrite` and `Holes` (C90, C20, C57) with other bytes in the place of payloads; crc32 (C141) | The head of a frame decides how it is read; a stored byte is one that some piece has at its place, by induction over arrivals; C141_burst |
| C172 | proved | `Model/Program.lean`: the whole program, lines and datagrams in any order | `enter_asks`: what one line does to table and files; induction over the execution; for peers C138, for transfers of peers C163 |
| C173 | proved | `Model/Network.lean`: beacons put on the wire by lines entered anywhere (C131) | `C131_log`, `emits_built`: each packet is the encoding of a beacon named after a connection; `Beacon.encode_inv`: its parts; the digits of a 32 bit number are from 1 to 10 |
| C174 | proved | `Model/Crowd.lean`: programs as in `Model/Busy.lean` on the network of `Model/Network.lean`; beacons leave act by act | Refinement: each step amounts to none or one step of C131 (`accounts_step`), by induction the invariant `Accounts`; then C131 for the network and C145 for each program |
| C175 | proved | `Model/Crowd.lean`: infinite executions of networks whose commands run at the same time; fairness per machine in `Spec/CrowdForever.lean` | A step is nothing or one step for each machine (`crowd_sees`), so the arguments of C166 (place in the queue, acts left under the lock) and of C168 (a listener holds its datagram out until it is taken) go through with steps of others in between; C174 for what travels, C173 for the sizes, C82 for what the command sends |
| C176 | proved | `Model/Crowd.lean`: infinite executions of networks whose commands run at the same time, with nothing entered from some time on | Per machine: what waits gets less with every turn (C175) and is not added to, the lock is given back (C175), so a state is reached in which neither `begin` nor `act` is possible; the maximum over the machines; C174 for what was done |
| C177 | proved | `Model/Crowd.lean`: infinite executions of networks whose commands run at the same time; `Passes` and `Leaves` in `Spec/Current.lean` | Places in the air: those taken at the time named arrive no more from some time on, then what the listeners hold out is taken once (C175), and from there on only later beacons are handled (`crowd_handled_late`); one more comes (C175), and an entry shows the last beacon of its address (C66) |
| C178 | proved | `Crowd.restart`, `Crowd.again`, `Crowd.runAgain` (Model/Restart.lean) on top of the networks of C174 | Simulation (`Mirrors`): the runs of a machine become machines of their own, numbered; a restart becomes a change of the files of a run that has not done anything. For finite executions by induction with the configurations of the later runs told beforehand, for infinite ones with a choice of them (`C178_runs_for_ever`). The rest is C174 and C175 of the network of the runs; C175 is first proved with its hypotheses from some time on only (`crowd_found_from`). Side remark: session numbers begin anew with every start (`C178_sessions_again`). |
| C179 | proved | `Crowd.again` (Model/Restart.lean), `RestartForever`, `RestartEvent.seen` (Spec/Restart.lean), `Passes` and `Leaves` (Spec/Current.lean) | By the network of the runs (C178): what is asked of scheduler, user, system and network carries over from the machines to their last runs (`runs_*`), C177 there (`crowd_fresh`), and what leaves a run leaves its machine (`runs_leaves`). `C179_until_then`: a concrete execution in which the entry is old |
| C180 | proved | `OpenEvent`, `Crowd.openStep`, `Crowd.openRun` (Model/Strangers.lean) on top of the networks of C174 | Simulation (`Shadow`, `Quiet`): every execution with strangers is matched by one in which nothing is received and only the files are changed from outside; a command does the same with any network side as long as the files are the same (`command_net`). `C180_only_beacons` and the user's part of `C180_goes_on` are C174 for that execution; the network side is C127 for each program by itself (`C180_node`). `C180_ended_by`: the datagrams outside `ListenSafe` do end a program, in any state |
| C181 | proved | `OpenForever`, `OpenEvent.seen` (Spec/StrangersForever.lean) on the networks of C180 | Sending: the simulation of C180 step for step (`calm_step`, `calm_for_ever`) gives an execution without end in which nothing is received; what is asked of scheduler, lock and user carries over, and C175 there gives the beacons. Hearing: a step of a stranger takes nothing from a listener that holds something out (`open_moves`), so a fair `select` hears it (`open_heard`), and the entry then shows the last beacon handled (C66) |
| C182 | proved | `OpenForever`, `OpenEvent.seen` (Spec/StrangersForever.lean) on the networks of C180 | The execution without end in which nothing is received (C181) has the same fairness (`calm_fair`); C175 and C176 there give what the commands do, and it carries back, since users, lock, waiting commands and air are the same at every time. A program that a stranger has ended does nothing more (`open_ended_stays`) |
| C183 | proved | restarts (C178) and strangers (C180) together (`Model/Wild.lean`, `LastStart` in Spec/Wild.lean) | The runs as machines of their own: the simulation of C178 with strangers (`wild_mirrors_step`), so that C180 to C182 hold of every run; what a run sees is what its machine sees since the last start (`seenBy_last`); C181 and C182 with what is asked from some time on only (`open_sends_from`, `open_arrival`, `open_locks_from`) for the last runs |
| C184 | proved | the networks of C183 (`Model/Wild.lean`, `WildForever` in Spec/Wild.lean) | No step but an entered line adds to what waits at a program that is not started again (`wild_silent_step`); C183 gives each waiting command its turn, C182 in the network of the runs the release of the lock; a program that is ended and not started again stays so (`wild_ended_stays`) |
| C185 | proved | the networks of C183 (`Model/Wild.lean`, `WildForever` in Spec/Wild.lean), `Passes` and `Leaves` (Spec/Current.lean) | In the network of the runs with strangers: what is handled of a sender after every copy sent before some time has passed left a program later than that (`LateFrom`, `open_late`, `open_fresh`), as strangers no longer send under its address; carried to the machines as in C179 (`runs_*`, `runs_leaves`). `C185_believed`: a concrete execution in which a forged beacon is believed |
| C186 | proved | `Usage` (Model/DiskShare.lean) on the numbers of C120, with the rounding of `float32` as whole numbers in units of 2^-88 (`roundEven`, `round24`); no result leaves the range of `float32` (`C186_range`) | `C186_rounding`: the model rounds to the nearest `float32` (Spec/DiskShare.lean); rounding is monotone (`round24_mono`) and off by a part in 2^24 at most (`round24_near`); the three errors add (`errors_add`). The comment in the code says percentage: `C186_no_percentage` |
| C187 | proved | GetOwnerAndGroup of each system and the fields `Path`, `Uid` and `Gid` of FileMeta (Model/Owner.lean), on the trees of C128 | case by case on what `os.Lstat` answers; the numbers of 32 bits fit into `int`; the last name by the shape of the path |
| C188 | proved | Copy and Value with entries behind pointers (`DirHeap`, Model/DirCopy.lean) | the copy is the entry at a place nobody has a pointer to (`dir_copy_eq`); induction over the later assignments |
| C189 | proved | FrameD, FlagD and FrameT with the order of the map as a parameter (Model/FlagNames.lean) | the loop collects the keys of the map in that order (`collectKeys_eq`); a permutation has the same members |

## 5. Where code and property disagree

Each has a machine-checked witness unless it says otherwise.

* **Received ranges.** C06: `Add` writes into the array behind the slice it was called on whenever there is spare capacity, so a second holder of that slice sees other ranges.
* **Flags and settings.** C09: the tables lack `fileordir` and the `request` flag that the code asks for. C11: data frames ignore the values of `transfer`; beacons compute `freespaced` themselves. C12: an unknown option or `fileordir` ends the process, a name without `=` panics, empty text panics for request and beacon. C13: `ReplaceFlag` on empty text panics. C16: `CopyCliflags` copies `v4multicast` into `v6multicast` and drops `bcount`. C50: `txwilling on|off` stores an option the tables do not have; the next beacon command ends the process. C51: a query of the timers resets a data counter of 0, `timestamp` also sets `reqtstamp`, `timeout metadata` tests the request timer.
* **Configuration.** C15: which error is reported depends on map order. C79: a member of the wrong JSON type panics. C81: field positions are not checked. The timestamp table is not cleared before it is read.
* **Timestamps.** C17/C18: in the last second before 1970 `posix32_32` is accepted with a wrong value. C19: `localinterp` can be written and not read.
* **Frames on the wire.** C20: a d16 data frame with a timestamp and no payload is refused by the decoder. C21/C22: non ASCII names come back changed or panic. C22: d64 refuses sizes above 2^32-1. C24: a directory entry that cannot be encoded is left out silently, so files of 2^32 bytes and more are announced without an entry. C25: a status with a timestamp has 16 zero bytes at its end where the decoder looks at offset 8. C27: numbers are cut to the field. C28-C32: short or odd frames panic the decoders. C33: data keeps an old timestamp, request appends to the old name, status to the old holes.
* **Building frames.** C34 holds, with 64 bit wrap of `Bsize*Bavail` in the statement. C35: the descriptor is taken from the file below the working directory, the size from the file below Sardir; an old checksum is kept; `Mtime` is set to `Ctime`. C75: `MetaData.Make` uses the text of a number as file name, `Request.Make` always panics, `Status.Make` keeps old holes. C76: `Request.New` loses the authentication bytes. C77: printing a request always ends the process. Metadata without `csumtype` is an error unless it is a stream.
* **Peers and listening.** C38: the scan for the peer is outside the lock. C40: a request ends the receiver, as the flag `request` and the timestamp type it asks for are not in the tables. C41: every answered request blocks the main loop for ever. C42: version 2 and up, frame types 5 and up, undecodable frames and status error codes from 19 end the process. C44: no queued reply is ever sent. C61: beacons shorter than 8 bytes are dropped. C65: metadata with csumtype 4 and up and every request end the process. Error replies to d128 data frames cannot be encoded. C131 (proved, but worth knowing): programs exchange nothing but beacons, so no file ever moves.
* **Transfers.** C45: session 0 is handed out at the wrap. C46: fails when commands run at the same time (`C46_concurrent_counterexample`). C47/C68: removing deletes the last entry; `rmtran` panics when there is no connection. C48: every frame carries all holes, so frames exceed the MTU; maxholes 0 panics, negative maxholes sends nothing and answers success. C49: a bare `timestamp` flag is not counted, a tiny MTU gives 0 holes, no descriptor divides by zero. C53: put, putblind, give and delete wait for ever on a nil channel. C69: `NewResponder` never adds a transfer. C70: `Lookup` returns a copy, so `Change` is lost. C71: a failed dial leaves a dead entry.
* **Files.** C89: `get` as the first transfer and `take` at any time cut an existing file to nothing. C55/C63/C64: the directory is prefixed twice, so existing files are not found. C58: names with `..` leave the directory.
* **Command line.** C54: a blank line and a line without `:` panic. C72: a prompt with a colon breaks the input. C73: take, give and delete listings are always empty. C74: `get` does not report a bad address, `give` reports a good one as bad. C82: an interval above 292 years gives no pause. C83: `beacon off` leaves multicast listed. C84: the first of several addresses is skipped and `v4`/`v6` are refused in later places. C86: count 0 sends nothing. While beacons are sent the settings lock is held, so settings commands wait for count times interval seconds.
* **Outside the model.** Status, data, request and metadata `Send` call `WriteTo` on a connected UDP socket, which Go refuses; beacons use `Write`. `client/client.go` refers to names its package does not define. No frame type implements the interface `frames.Frame` (`Val` returns another type, `Beacon.Send` takes one argument), and nothing but `client/client.go` imports the package.
* **Whole paths.** C87: a status report with a timestamp and 64 bit numbers is accepted by no receiver. C88: the stamped empty frame that ends a file under a 16 bit descriptor is accepted by no receiver.
* **Old client (`client/client.go`).** C90: an MTU with exactly no room sends empty frames for ever, less panics, and a timestamp type in the flag text ends the process. C91: without a descriptor in the text frames are two bytes too long. C92: with timestamps and 16 bit descriptors the end of a file of whole blocks is never announced. C93: no hole is ever filled. C94: no put ever succeeds, so `putrm` never removes a file; `putblind` reports success after the metadata, with no data sent; a `put` to a peer that cannot be dialled closes the connection it has not got and panics.
* **Help, exit, clear.** C96: `exit 0`, `exit 1`, `quit 1` and ` exit` say good bye and go on, because `Cexit` is never read; `exit` ends with level 1. C97: `ls ?` is an error, `cancel ?` repeats the words, `quit ?` explains `exit`, `usage ?` lists everything. C98: two clears at a time can leave the user in another window.
* **Tables.** C99: the column `Des` has room for three characters and `d128` has four. C100: the column `Direct` has room for six characters and the cell `Initiator` has nine; it says `Initiator` for responders too.
* **Windows and printing.** C101: ^P pressed while in the packet window hides the window the user types in. C102: `red_bblack` looks like `ured_black`; text from the network with escape sequences changes the terminal; `Do` passes its text as the colour. C103: each print runs in a goroutine of its own, so the prompt can come before the answer.
* **Start up.** C105: a relative `sardir` is entered and then looked up again from inside, so the program does not start or serves another directory. When `InterfaceByName` fails, the message names the configuration file; when `NewGui` fails, another (nil) error is logged; the global `Cmdptr` is shadowed and stays nil.
* **Commands at the same time.** C106: `CopyCliflags` takes no lock, so the copy can mix two states of the settings, and a command that writes the map meanwhile ends the program (concurrent map iteration and map write); the mutex `cmu` in `Setglobal` is a local variable and protects nothing. C107: `cmdBeacon` holds `Climu` while it sends and sleeps: `beacon off` waits until all frames are sent, and so does every settings command, for `bcount` times the interval. C108: `Info` and `Match` read `Transfers[i]` without `Trmu`; a removal meanwhile is an index out of range.
* **Sending.** C109: `Send` of data, request, metadata and status frames uses `WriteTo`, but all connections of transfers are made with `DialUDP`, and such connections refuse `WriteTo`. `Beacon.Send` takes one argument, so a beacon is no `frames.Frame`.
* **Line editing.** C110: `CursorRight` compares the column with the length in bytes, so after a character of more than one byte it moves past the end; with `ppad` 2 the first key takes the place of the colon and Enter panics. The delete key erases backwards.
* **Questions.** C111: `timeout metadata` says "No Timeout" when the request timer is 0; `timeout datacounter` says "Never" and sets the counter to 100.
* **Moving in windows.** C112: `CursorDown` compares with the number of lines minus one, which an empty window never reaches, so the cursor leaves the window's text. C113: all windows but the packet window have `Autoscroll`, so text that has left them cannot be read again. C114: `Clearwin` keeps the origin; after `clear` of a scrolled window the first rows printed are not seen. C115: `gotolastrow` puts the origin one row too low in the packet window, the last row is not shown.
* **Sessions.** C116: a command that reaches the last column of its window moves the cursor to the next row, where there is no colon, and Enter is an index out of range. Once there are more prompts than rows, drawing puts the cursor back on the line and the same command is run. Up and Enter run a command again without a new prompt.
* **Usage.** C117: `descriptor x` says its usage and then "Descriptor size is …"; `timeout x off` and `peers x` say nothing; `help x` describes `help`; `give` asks `prusage` for `putrm`, which is no command, so it says "Invalid Command".
* **Printed times.** C118: a `localinterp` stamp holds no time, it prints "localinterp" for every moment.
* **Dialling.** C119: the client dials `[10.0.0.1:5000]:7542`: `RemoteAddr().String()` has the port in it. It cannot be resolved, so `Doclient` never sends.
* **System.** C120: on windows free and available are exchanged. On windows `NewTime` assigns the `time.Duration` of `time.Since` to fields of type `time.Time`, which Go does not compile (read off the text, no witness). C186: the comment of `Usage` promises a percentage, the answer is a share (`C186_no_percentage`); for a disk that cannot be asked it is not a number. C121: `To16` is never nil, so asked for IPv6 `OutboundIP` answers the first address, IPv4 or not.
* **Printing.** C122: names are printed as they are; a request whose file name holds `\n  auth:` prints like one with another name and another authorisation.
* **Keys.** C123: `Keybindings` returns nil when the left or right arrow, Ctrl-P or an erasing key cannot be bound, and binds none of the keys after it; `main` goes on without Ctrl-C and Enter.
* **Windows.** C125: Ctrl-Space prints `gotolastrow ox=…` to the error window each time (and prints the row as `ox`); with the packets shown, `setCurrentViewOnTop` returns the packet window, so its cursor is moved and not that of the window gone to. C116: once the command window is full, commands above it cannot be reached with the arrows, and it cannot be scrolled back.
* **Tests.** C126: `TestRequest` ends with `log.Fatal` (`fileordir` is not a configured field); `TestFileio` panics at its first call, since `sarflags.Cliflag` is nil outside `main`; `TestMetadata` fails where there is no `go.mod` in the package directory and panics where there is one.
* **Files looked at.** C128: `FileMeta` checks its `Lstat` for `IsNotExist` only, so a name below a file or in a directory that may not be searched panics; it looks for the target of a link from the working directory and uses the answer without looking at the error, so `put` of a relative or broken link ends the program.
* **Answers of the transfer commands.** C129: `get` with a bad address prints nothing; `give` says "Invalid IP Address" when the address is good and the transfer is refused, and not when it is bad; a refused `put` shows the help of `getrm`, which is no command; "No connection exists to peer" names the peer of the new command, not the one of the transfer without connection.
* **Statuses read by the old client.** C130: any frame of version 1 that is not a status ends the process, since the message asks for a field `frametpye`; a datagram of less than four bytes panics; the session of a status is never compared; for a whole file `success` is sent twice.
* **Goroutines of a put.** C132: when `cput` has reported an error nobody empties the channels any more, so `senddata` with two words to go, or `readstatus` with two words or two positions, never returns; with the network down that is so for every file of two frames or more. If `readstatus` sent two numbers twice, `cput` would wait for itself on `datapos`.
* **Announcements.** C134: "Added New Peer" is printed for every beacon of a known peer with other contents as well; "New transfer request" is printed in no execution, since the main loop first waits for itself on `tx` (C41).
* **Data.** C137: nothing received is ever written to a file: data, metadata and status frames are only printed, and once a transfer is in the table the main loop takes no frame any more.
* **Peer list.** C138: entries never leave the list, and one beacon from each of any number of addresses makes it that long.
* **Ctrl-C.** C139: with tables that let requests be answered, Ctrl-C no longer ends the program once a request was handled.
* **Windows.** C140: lines can be shown in another order than printed, and what is on its way at Ctrl-C is lost.
* **History.** C144: the commands entered are kept, but `history` says only that it is not implemented.
* **Order of commands.** C145: each line starts a goroutine and nothing keeps their order, so of two `timeout` lines the first can have the last word.
* **Ends of the program.** C146: no end of the running program gives the terminal back, and none has exit status 0, not even Ctrl-C; wrong arguments and an unreadable configuration have status 0.
* **Messages of the start.** C147: an interface that is not there is reported with the name of the configuration file; a failure of the windows prints `<nil>` (the wrong variable); a multicast setting that is no address prints `<nil>` for it; free space of 2^64 bytes or more wraps.
* **Multicast beacons.** C152: `beacon v4` and `beacon v6` print that beacons are sent before the group is looked at; if the configured group is no address nothing is sent and nothing more is said (`sarwin/sarwin.go:1316-1333`). The start refuses a group that is no address (C105), so this takes a resolver that fails later.
* **Connections and files left open.** C156: `Transfer.Remove` and `rmtran` close neither the connection nor the file of a transfer (`sarwin/sarwin.go:1216-1229`), so each transfer ever started costs up to two open descriptors for the rest of the run.
* **No way back to `txwilling yes`.** C160: the shipped configuration starts with `txwilling` at `yes`, but the command stores `on`, `off` or `capable` as typed (sarwin/sarwin.go:2408-2434). After any `txwilling` command no sequence of commands restores the settings the program was started with (`C160_counterexample`); every other shipped setting can be restored (`C160_shipped`).
* **Willingness is not consulted.** C163: `AddRxTran` looks at the willingness flags of the request only (trans/trans.go:96-215), never at the settings of the user. After `rxwilling off` and `txwilling off` the program still grants `get` and `put` and still deletes files for peers (`C163_counterexample`, with tables in which a granted request does not end the process); no settings command changes anything a peer gets (`C163_regardless`).
* **Cut frames.** C164: no frame carries its length, and no decoder asks for the NUL at the end of a path in metadata. The first bytes of a frame are taken for a frame if the fixed part is there: data with less payload, a status with fewer holes, metadata of a file with a shorter name (`C164_counterexample`). A cut in the fixed part of a data, status or metadata frame, in the name of a request or before the name of a beacon ends the process unless less than the minimum length is left. The listener itself never cuts a datagram (`C164_whole_or_not`).
* **Willingness of peers.** C167: peers tell in their beacons whether they receive and send files, how much space is left and which file sizes they take; the program keeps and lists all this, but `NewInitiator` (sarwin/sarwin.go:921-983) asks for none of it: a transfer is started with a peer that has refused beforehand (`C167_unwilling`).

## 6. Axioms

`#print axioms` of every theorem in `MANIFEST.json`, grouped by answer (counts, then properties).

* none: 20 theorems - C09 (8), C11 (1), C12 (1), C120 (2), C16 (3), C186 (1), C40 (1), C47 (1), C53 (1), C54 (1)
* `propext`: 44 theorems - C04 (1), C103 (4), C109 (1), C120 (1), C126 (4), C128 (4), C13 (1), C144 (1), C148 (4), C15 (2), C156 (1), C187 (2), C34 (1), C46 (1), C55 (1), C56 (1), C58 (1), C63 (2), C64 (3), C79 (1), C89 (2), C94 (2), C98 (3)
* `propext`, `Quot.sound`: 105 theorems - C04 (1), C05 (1), C07 (6), C10 (3), C108 (3), C109 (11), C112 (3), C113 (2), C116 (1), C120 (2), C122 (1), C123 (3), C124 (1), C128 (3), C132 (3), C133 (1), C141 (1), C148 (1), C16 (3), C161 (2), C187 (2), C188 (2), C189 (4), C22 (1), C26 (1), C27 (4), C33 (7), C46 (1), C47 (4), C53 (1), C55 (3), C58 (2), C63 (1), C64 (4), C70 (1), C71 (2), C75 (4), C77 (2), C81 (1), C82 (1), C89 (1), C91 (1), C94 (1), C98 (2)
* `propext`, `Classical.choice`, `Quot.sound`: 809 theorems - C01 (1), C02 (1), C03 (2), C04 (1), C05 (1), C06 (5), C07 (7), C08 (5), C09 (1), C10 (1), C100 (3), C101 (5), C102 (6), C104 (2), C105 (8), C106 (6), C107 (4), C108 (2), C109 (6), C11 (13), C110 (4), C111 (5), C112 (1), C113 (1), C114 (3), C115 (3), C116 (6), C117 (4), C118 (6), C119 (3), C12 (7), C120 (1), C121 (4), C122 (18), C123 (3), C124 (1), C125 (9), C126 (6), C127 (10), C128 (2), C129 (8), C13 (7), C130 (15), C131 (9), C132 (7), C133 (7), C134 (5), C135 (3), C136 (6), C137 (4), C138 (3), C139 (3), C14 (8), C140 (6), C141 (6), C142 (7), C143 (2), C144 (3), C145 (6), C146 (8), C147 (11), C148 (1), C149 (6), C15 (3), C150 (3), C151 (3), C152 (6), C153 (5), C154 (4), C155 (6), C156 (8), C157 (3), C158 (10), C159 (3), C160 (6), C161 (5), C162 (4), C163 (3), C164 (11), C165 (9), C166 (6), C167 (3), C168 (3), C169 (4), C17 (7), C170 (3), C171 (3), C172 (5), C173 (3), C174 (7), C175 (6), C176 (2), C177 (3), C178 (8), C179 (3), C18 (4), C180 (8), C181 (3), C182 (4), C183 (10), C184 (2), C185 (3), C186 (9), C187 (2), C19 (4), C20 (5), C21 (5), C22 (4), C23 (3), C24 (3), C25 (5), C26 (3), C27 (4), C28 (2), C29 (3), C30 (4), C31 (2), C32 (3), C33 (6), C34 (3), C35 (9), C36 (1), C37 (3), C38 (6), C39 (2), C40 (5), C41 (4), C42 (6), C43 (2), C44 (3), C45 (4), C46 (2), C48 (8), C49 (7), C50 (5), C51 (5), C52 (2), C53 (3), C54 (5), C56 (5), C57 (3), C58 (2), C59 (4), C60 (8), C61 (3), C62 (6), C63 (3), C65 (2), C66 (2), C67 (1), C68 (6), C69 (4), C70 (2), C71 (1), C72 (3), C73 (5), C74 (4), C75 (3), C76 (4), C77 (10), C78 (7), C79 (1), C80 (1), C81 (1), C82 (3), C83 (3), C84 (5), C85 (1), C86 (2), C87 (4), C88 (3), C89 (1), C90 (6), C91 (5), C92 (4), C93 (4), C95 (3), C96 (2), C97 (3), C99 (7)
