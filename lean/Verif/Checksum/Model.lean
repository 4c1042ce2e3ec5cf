import Verif.Common.Bytes
/-! Model of `core/crypto/checksum.c`. -/
namespace Verif.Checksum

/-- One round of the inner loop, checksum.c:62-69. -/
def shift (crc : UInt8) : UInt8 := if crc &&& 0x80 ≠ 0 then (crc <<< 1) ^^^ 0x07 else crc <<< 1

/-- The inner loop, checksum.c:62-69: eight rounds. -/
def shift8 (crc : UInt8) : UInt8 := shift (shift (shift (shift (shift (shift (shift (shift crc)))))))

/-- `checksum_update_smbus_crc8`, checksum.c:51-73. `data` is the data the loop reads: the first `len` bytes of the buffer,
`len` being a `uint8_t`. -/
def update (crc : UInt8) (data : Bytes) : UInt8 := data.foldl (fun c d => shift8 (c ^^^ d)) crc

/-- `checksum_init_smbus_crc8`, checksum.c:36-39. -/
def init (addr : UInt8) : UInt8 := update 0 [addr]

/-- `checksum_crc8`, checksum.c:17-28, called with a buffer and a `size_t` length that is converted to `uint8_t`. -/
def crc8 (addr : UInt8) (data : Bytes) (len : Nat) : UInt8 :=
  if len % 256 = 0 then 0 else update (init addr) (data.take (len % 256))

end Verif.Checksum
