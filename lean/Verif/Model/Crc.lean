/-
Checksum used by MAVLink frames.

The functions live in the MAVLink C library (`modules/mavlink_c_library_v2`, a git submodule that is not
part of /repo); they are called from src/endpoint.cpp:665-666.  They are modelled from the published
MAVLink definition (`checksum.h`).
-/

namespace Verif

/-- `X25_INIT_CRC` of the MAVLink library's checksum.h (called through `crc_calculate`,
src/endpoint.cpp:665). -/
def crcInit : UInt16 := 0xffff

/-- `crc_accumulate(data, &crc)` (library; called at src/endpoint.cpp:666):
`tmp = data ^ (uint8_t)(crc & 0xff); tmp ^= (tmp << 4);
 crc = (crc >> 8) ^ (tmp << 8) ^ (tmp << 3) ^ (tmp >> 4)`. -/
def crcAccumulate (data : UInt8) (crc : UInt16) : UInt16 :=
  let tmp : UInt8 := data ^^^ crc.toUInt8
  let tmp : UInt8 := tmp ^^^ (tmp <<< 4)
  (crc >>> 8) ^^^ (tmp.toUInt16 <<< 8) ^^^ (tmp.toUInt16 <<< 3) ^^^ (tmp.toUInt16 >>> 4)

/-- `crc_calculate(buf, len)` (library; called at src/endpoint.cpp:665): accumulate all bytes starting
from `X25_INIT_CRC`. -/
def crcCalculate (bs : List UInt8) : UInt16 :=
  bs.foldl (fun c b => crcAccumulate b c) crcInit

end Verif
