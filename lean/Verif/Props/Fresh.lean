import Verif.Spec.Fresh
import Verif.Props.New
import Verif.Props.Sharp
import Verif.Props.MetaNew
/-! # C11 for frames built in a variable that has just been declared -/
namespace Saratoga

theorem get_zero (T : Tables) (f : String) : get T 0 f = 0 := by
  simp [get]

theorem carries_fresh {T : Tables} {fields : List String} {assigns : List (String × String)} {h : BitVec 32}
    (c : Carries T fields assigns 0 h) : OnlySets T fields assigns h :=
  ⟨c.1, fun f hf hl => by rw [c.2.1 f hf hl, get_zero], fun j hj => by rw [c.2.2 j hj]; simp⟩

/-- **C11** A data frame built in a fresh variable sets what the text says and nothing else. -/
theorem C11_fresh_data (T : Tables) (sep : Separated T dataFields) (clock : GoTime) (x : Data) (text : String) (info : Dinfo)
    (built : Data.zero.new T clock text info = .ret (x, none)) :
    OnlySets T dataFields (("version", "v1") :: ("frametype", "data") :: (flagParts text).flatMap dataAssigns) x.header :=
  carries_fresh (C11_data_partial T sep clock Data.zero x text info built).1

/-- **C11** The same for status frames; and the holes are those of `info`. -/
theorem C11_fresh_status (T : Tables) (sep : Separated T statusFields) (clock : GoTime) (x : Status) (text : String)
    (info : Sinfo) (built : Status.zero.new T clock text info = .ret (x, none)) :
    OnlySets T statusFields (("version", "v1") :: ("frametype", "status") :: (flagParts text).flatMap statusAssigns) x.header ∧
      x.holes = info.holes := by
  have := C11_status T sep clock Status.zero x text info built
  exact ⟨carries_fresh this.1, by rw [this.2.2.2.2]; rfl⟩

/-- **C11** The same for request frames. -/
theorem C11_fresh_request (T : Tables) (sep : Separated T requestFields) (x : Request) (text : String) (info : Rinfo)
    (built : Request.zero.new T text info = .ret (x, none)) :
    OnlySets T requestFields
      (("version", "v1") :: ("frametype", "request") :: (flagPartsTrimmed text).flatMap requestAssigns) x.header :=
  carries_fresh (C11_request T sep Request.zero x text info built).1

/-- **C11** The same for metadata frames. -/
theorem C11_fresh_metadata (T : Tables) (sep : Separated T metadataFields) (env : FileEnv) (x : MetaData) (text : String)
    (info : Minfo) (built : MetaData.zero.new T env text info = .ret (x, none)) :
    OnlySets T metadataFields (("version", "v1") :: ("frametype", "metadata") :: (flagParts text).flatMap metadataAssigns)
      x.header :=
  carries_fresh (C11_metadata T sep env MetaData.zero x text info built).1

/-- **C11** The same for beacons, up to what the free space found on disk adds. -/
theorem C11_fresh_beacon (T : Tables) (sep : Separated T beaconFields) (env : DiskEnv) (x : Beacon) (text : String)
    (info : Binfo) (built : Beacon.zero.new T env text info = .ret (x, none)) :
    ∃ extra, (extra = [] ∨ extra = [("freespace", "no")] ∨ ∃ desc, extra = [("freespaced", desc)]) ∧
      OnlySets T beaconFields
        ((("version", "v1") :: ("frametype", "beacon") :: (flagParts text).flatMap beaconAssigns) ++ extra) x.header := by
  obtain ⟨extra, h, c, _⟩ := C11_beacon_partial T sep env Beacon.zero x text info built
  exact ⟨extra, h, carries_fresh c⟩

/-- Frames the shipped program builds. -/
example : (∃ x, Data.zero.new shipped ⟨1000000000, 0⟩ "descriptor=d32,eod=yes" ⟨7, 0, [1]⟩ = .ret (x, none)) ∧
    (∃ x, Status.zero.new shipped ⟨1000000000, 0⟩ "descriptor=d32,errcode=badpacket" ⟨7, 0, 0, []⟩ = .ret (x, none)) ∧
    (∃ x, Request.zero.new shipped "descriptor=d32,reqtype=get" ⟨7, [97#8], []⟩ = .ret (x, none)) ∧
    (∃ x, MetaData.zero.new shipped tenBytes "descriptor=d64,csumtype=md5" ⟨7, [97#8]⟩ = .ret (x, none)) ∧
    (∃ x, Beacon.zero.new shipped ⟨none, .ok (4096, 1000)⟩ "descriptor=d64" ⟨0, []⟩ = .ret (x, none)) :=
  ⟨⟨_, rfl⟩, ⟨_, rfl⟩, ⟨_, rfl⟩, ⟨_, rfl⟩, ⟨_, rfl⟩⟩

end Saratoga
