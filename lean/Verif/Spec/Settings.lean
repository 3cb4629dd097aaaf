import Verif.Model.Settings
import Verif.Spec.Global
/-! # Specification vocabulary for the settings commands -/
namespace Saratoga

/-- `s` is the decimal text of `n`: an optional sign and at least one digit, and `n` fits a 64 bit
integer. -/
def NumberText (s : String) (n : Int) : Prop :=
  ∃ ds : List Char, ds ≠ [] ∧ (∀ c ∈ ds, c.isDigit = true) ∧
    ((s.toList = ds ∨ s.toList = '+' :: ds) ∧ n = Nat.ofDigitChars 10 ds 0 ∨
      s.toList = '-' :: ds ∧ n = -(Nat.ofDigitChars 10 ds 0 : Int)) ∧
    -(2 ^ 63) ≤ n ∧ n < 2 ^ 63

/-- The things a user can set. -/
inductive Setting where
  | flag (key : String)
  | timestamp
  | timezone
  | bcount
  | interval
  | metadata
  | request
  | status
  | transfer
  | datacounter
deriving DecidableEq, Repr

/-- The value of a setting: a flag option (absent when the flag is not there), a name or a number. -/
inductive SettingVal where
  | opt (o : Option String)
  | name (s : String)
  | num (n : Int)
deriving DecidableEq, Repr

def Cliflags.read (c : Cliflags) : Setting → SettingVal
  | .flag k => .opt (assoc k c.global)
  | .timestamp => .name c.timestamp
  | .timezone => .name c.timezone
  | .bcount => .num c.bcount
  | .interval => .num c.timeout.binterval
  | .metadata => .num c.timeout.metadata
  | .request => .num c.timeout.request
  | .status => .num c.timeout.status
  | .transfer => .num c.timeout.transfer
  | .datacounter => .num c.timeout.datacounter

/-- The rest of the settings, which no command changes. -/
def Cliflags.fixed (c : Cliflags) : String × String × Int × String × Int × List Byte × Int :=
  (c.v4multicast, c.v6multicast, c.port, c.prompt, c.ppad, c.sardir, c.buffersize)

/-- Command, word, setting, value: what the user manual part of the program promises for commands that
take a word. For `txwilling` the words are stored as typed. `timestamp` sets two things. -/
def wordTable : List (String × String × List (Setting × SettingVal)) :=
  let f (k v : String) : Setting × SettingVal := (.flag k, .opt (some v))
  let ts (v : String) : List (Setting × SettingVal) := [f "reqtstamp" "yes", (.timestamp, .name v)]
  [("checksum", "off", [f "csumtype" "none"]), ("checksum", "none", [f "csumtype" "none"]),
   ("checksum", "crc32", [f "csumtype" "crc32"]), ("checksum", "md5", [f "csumtype" "md5"]),
   ("checksum", "sha1", [f "csumtype" "sha1"]),
   ("descriptor", "auto", [f "descriptor" "d64"]), ("descriptor", "d16", [f "descriptor" "d16"]),
   ("descriptor", "d32", [f "descriptor" "d32"]), ("descriptor", "d64", [f "descriptor" "d64"]),
   ("freespace", "yes", [f "freespace" "yes"]), ("freespace", "no", [f "freespace" "no"]),
   ("reqtstamp", "yes", [f "reqtstamp" "yes"]), ("reqtstamp", "no", [f "reqtstamp" "no"]),
   ("rxwilling", "on", [f "rxwilling" "yes"]), ("rxwilling", "off", [f "rxwilling" "no"]),
   ("rxwilling", "capable", [f "rxwilling" "capable"]),
   ("stream", "yes", [f "stream" "yes"]), ("stream", "no", [f "stream" "no"]),
   ("txwilling", "on", [f "txwilling" "on"]), ("txwilling", "off", [f "txwilling" "off"]),
   ("txwilling", "capable", [f "txwilling" "capable"]),
   ("timestamp", "off", [f "reqtstamp" "no"]),
   ("timestamp", "32", ts "posix32"), ("timestamp", "32_32", ts "posix32_32"),
   ("timestamp", "64", ts "posix64"), ("timestamp", "64_32", ts "posix64_32"),
   ("timestamp", "32_y2k", ts "epoch2000_32"), ("timestamp", "local", ts "localinterp"),
   ("timezone", "local", [(.timezone, .name "local")]), ("timezone", "utc", [(.timezone, .name "utc")]),
   ("interval", "off", [(.interval, .num 0)])]

/-- Commands that take a number. -/
def numberCommands : List (String × Setting) := [("bcount", .bcount), ("interval", .interval)]

/-- The timers of `timeout <timer> <n|off>` with the value for `off`. -/
def timerTable : List (String × Setting × Int) :=
  [("metadata", .metadata, 60), ("request", .request, 60), ("status", .status, 60),
   ("transfer", .transfer, 60), ("datacounter", .datacounter, 100)]

/-- The command line `args` asks for the assignments `ws`. -/
inductive Orders : List String → List (Setting × SettingVal) → Prop
  | word {cmd w ws} : (cmd, w, ws) ∈ wordTable → Orders [cmd, w] ws
  | number {cmd s text n} : (cmd, s) ∈ numberCommands → NumberText text n → 0 ≤ n →
      Orders [cmd, text] [(s, .num n)]
  | timer {t s d text n} : (t, s, d) ∈ timerTable → NumberText text n → 0 ≤ n →
      (s = .datacounter → n ≠ 0) → Orders ["timeout", t, text] [(s, .num n)]
  | zeroCounter {text} : NumberText text 0 →
      Orders ["timeout", "datacounter", text] [(.datacounter, .num 100)]
  | timerOff {t s d} : (t, s, d) ∈ timerTable → Orders ["timeout", t, "off"] [(s, .num d)]

/-- The settings after some assignments. -/
def Assigned (c c' : Cliflags) (ws : List (Setting × SettingVal)) : Prop :=
  (∀ w ∈ ws, c'.read w.1 = w.2) ∧ (∀ s, (∀ w ∈ ws, w.1 ≠ s) → c'.read s = c.read s) ∧ c'.fixed = c.fixed

/-- Timers make sense. -/
def TimersOK (c : Cliflags) : Prop :=
  0 ≤ c.timeout.metadata ∧ 0 ≤ c.timeout.request ∧ 0 ≤ c.timeout.status ∧ 0 ≤ c.timeout.transfer ∧
    0 < c.timeout.datacounter

end Saratoga
