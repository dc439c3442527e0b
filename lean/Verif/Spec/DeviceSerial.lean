import Verif.Model.DeviceSerial

/-! # Specification of serial numbers (C101) -/

namespace Mflt.Spec.DeviceSerial

open Mflt.DeviceSerial (Port Op World Job)

/-- "0123456789abcdef" or "0123456789ABCDEF". -/
def digits : Port → Bytes
  | .zephyr => [0x30, 0x31, 0x32, 0x33, 0x34, 0x35, 0x36, 0x37, 0x38, 0x39, 0x61, 0x62, 0x63, 0x64, 0x65, 0x66]
  | .espIdf => [0x30, 0x31, 0x32, 0x33, 0x34, 0x35, 0x36, 0x37, 0x38, 0x39, 0x41, 0x42, 0x43, 0x44, 0x45, 0x46]

/-- The serial number of the device with this hardware id. -/
def serial (port : Port) (id : Bytes) : Bytes :=
  id.flatMap fun b => [(digits port).getD (b.toNat / 16) 0, (digits port).getD (b.toNat % 16) 0]

/-- The lengths of an id: the driver of Zephyr fills up to 16 bytes, a MAC address has 6. -/
def fits : Port → Bytes → Prop
  | .zephyr, id => 0 < id.length ∧ id.length ≤ 16
  | .espIdf, id => id.length = 6

/-- The hardware told its id in every call. -/
def told : Op → Prop
  | .call _ _ ok => ok = true
  | .step _ => True

/-- No call is in progress. -/
def quiet (w : World) : Prop := ∀ j ∈ w.jobs, j = .idle ∨ ∃ s, j = .has s

end Mflt.Spec.DeviceSerial
