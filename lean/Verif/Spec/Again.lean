import Verif.Spec.Request
/-! # Specification vocabulary for frames that are read and sent on -/
namespace Saratoga

/-- How many of the 16 bytes of a timestamp a type uses, the type byte included. -/
def stampUses : String → Nat
  | "posix32" => 5
  | "posix64" => 9
  | "posix32_32" => 9
  | "posix64_32" => 13
  | "epoch2000_32" => 5
  | _ => 16

end Saratoga
