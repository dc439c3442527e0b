import Verif.Model.Mem

/-!
# Model of `components/util/src/memfault_minimal_cbor.c`

An encoder over an arbitrary callback context `σ`. `size_t` counts are natural numbers: the only
addition that could wrap is `encoded_size + data_len`, and the destination (`encoded_size` bytes of
it) and the source (`data_len` bytes) are distinct objects of one address space.
-/

namespace Mflt.Cbor

/-- `sMemfaultCborEncoder`, util/cbor.h. `writeCb = none` is the null callback, i.e.
`compute_size_only`. `ctx` is the memory behind `write_cb_ctx`. -/
structure Encoder (σ : Type) where
  writeCb : Option (σ → Nat → Bytes → σ)
  ctx : σ
  bufLen : Nat
  encodedSize : Nat

variable {σ : Type}

/-- `memfault_cbor_encoder_init`, memfault_minimal_cbor.c:43-52. -/
def Encoder.init (cb : σ → Nat → Bytes → σ) (ctx : σ) (bufLen : Nat) : Encoder σ :=
  { writeCb := some cb, ctx := ctx, bufLen := bufLen, encodedSize := 0 }

/-- `memfault_cbor_encoder_size_only_init`, memfault_minimal_cbor.c:54-56. -/
def Encoder.initSizeOnly (ctx : σ) : Encoder σ :=
  { writeCb := none, ctx := ctx, bufLen := 0, encodedSize := 0 }

/-- `prv_add_to_result_buffer`, memfault_minimal_cbor.c:64-84. -/
def addToResult (e : Encoder σ) (data : Bytes) : Bool × Encoder σ :=
  if data.length = 0 then (true, e)
  else match e.writeCb with
    | none => (true, { e with encodedSize := e.encodedSize + data.length })
    | some cb =>
      if e.encodedSize + data.length > e.bufLen then (false, e)
      else (true, { e with ctx := cb e.ctx e.encodedSize data,
                           encodedSize := e.encodedSize + data.length })

/-- `CBOR_SERIALIZE_MAJOR_TYPE`, memfault_minimal_cbor.c:37. -/
def majorBits (mt : Nat) : Nat := ((mt &&& 0x7) <<< 5) % 256

/-- The bytes `prv_encode_unsigned_integer` builds in `tmp_buf`,
memfault_minimal_cbor.c:86-111 (at most 5 of them). -/
def headBytes (major : Nat) (val : BitVec 32) : Bytes :=
  let mt := majorBits major
  let v := val.toNat
  if v < 24 then [UInt8.ofNat (mt + v)]
  else if v ≤ 0xff then [UInt8.ofNat (mt + 24), UInt8.ofNat (v &&& 0xff)]
  else if v ≤ 0xffff then
    [UInt8.ofNat (mt + 25), UInt8.ofNat ((v >>> 8) &&& 0xff), UInt8.ofNat (v &&& 0xff)]
  else [UInt8.ofNat (mt + 26), UInt8.ofNat ((v >>> 24) &&& 0xff), UInt8.ofNat ((v >>> 16) &&& 0xff),
    UInt8.ofNat ((v >>> 8) &&& 0xff), UInt8.ofNat (v &&& 0xff)]

/-- `prv_encode_unsigned_integer`, memfault_minimal_cbor.c:86-113. -/
def encodeHead (e : Encoder σ) (major : Nat) (val : BitVec 32) : Bool × Encoder σ :=
  addToResult e (headBytes major val)

/-- `prv_encode_uint64`, memfault_minimal_cbor.c:115-120. -/
def uint64Bytes (val : BitVec 64) : Bytes :=
  [56, 48, 40, 32, 24, 16, 8, 0].map fun shift => UInt8.ofNat ((val.toNat >>> shift) &&& 0xff)

/-- `memfault_cbor_encode_long_signed_integer`, memfault_minimal_cbor.c:124-142. -/
def encodeLongSigned (e : Encoder σ) (value : BitVec 64) : Bool × Encoder σ :=
  let ui := value.sshiftRight 63
  let major := (ui &&& 1#64).toNat
  let ui := ui ^^^ value
  if ui.toInt ≤ 0xFFFFFFFF then encodeHead e major (ui.setWidth 32)
  else addToResult e (UInt8.ofNat (majorBits major ||| 27) :: uint64Bytes ui)

/-- `memfault_cbor_encode_uint64_as_double`, memfault_minimal_cbor.c:144-151. -/
def encodeDouble (e : Encoder σ) (val : BitVec 64) : Bool × Encoder σ :=
  addToResult e (UInt8.ofNat (majorBits 7 ||| 27) :: uint64Bytes val)

/-- `memfault_cbor_encode_unsigned_integer`, memfault_minimal_cbor.c:153-155. -/
def encodeUnsigned (e : Encoder σ) (value : BitVec 32) : Bool × Encoder σ := encodeHead e 0 value

/-- `memfault_cbor_join`, memfault_minimal_cbor.c:157-160. -/
def join (e : Encoder σ) (data : Bytes) : Bool × Encoder σ := addToResult e data

/-- `memfault_cbor_encode_signed_integer`, memfault_minimal_cbor.c:162-171. -/
def encodeSigned (e : Encoder σ) (value : BitVec 32) : Bool × Encoder σ :=
  let ui := value.sshiftRight 31
  let major := (ui &&& 1#32).toNat
  let ui := ui ^^^ value
  encodeHead e major ui

/-- `memfault_cbor_encode_byte_string`, memfault_minimal_cbor.c:173-177. Here and below a length
is converted to `uint32_t`. -/
def encodeByteString (e : Encoder σ) (buf : Bytes) : Bool × Encoder σ :=
  match encodeHead e 2 (BitVec.ofNat 32 buf.length) with
  | (true, e) => addToResult e buf
  | (false, e) => (false, e)

/-- `memfault_cbor_encode_byte_string_begin`, memfault_minimal_cbor.c:179-181. -/
def encodeByteStringBegin (e : Encoder σ) (len : Nat) : Bool × Encoder σ :=
  encodeHead e 2 (BitVec.ofNat 32 len)

/-- `strlen`: the bytes before the first NUL. The model's C strings are the byte lists; what
follows the terminator is not part of them. -/
def cstr (s : Bytes) : Bytes := s.takeWhile (· ≠ 0)

/-- `memfault_cbor_encode_string`, memfault_minimal_cbor.c:183-187. -/
def encodeString (e : Encoder σ) (str : Bytes) : Bool × Encoder σ :=
  let str := cstr str
  match encodeHead e 3 (BitVec.ofNat 32 str.length) with
  | (true, e) => addToResult e str
  | (false, e) => (false, e)

/-- `memfault_cbor_encode_string_begin`, memfault_minimal_cbor.c:189-191. -/
def encodeStringBegin (e : Encoder σ) (len : Nat) : Bool × Encoder σ :=
  encodeHead e 3 (BitVec.ofNat 32 len)

/-- `memfault_cbor_encode_dictionary_begin`, memfault_minimal_cbor.c:193-195. -/
def encodeDictionaryBegin (e : Encoder σ) (n : Nat) : Bool × Encoder σ :=
  encodeHead e 5 (BitVec.ofNat 32 n)

/-- `memfault_cbor_encode_array_begin`, memfault_minimal_cbor.c:197-199. -/
def encodeArrayBegin (e : Encoder σ) (n : Nat) : Bool × Encoder σ :=
  encodeHead e 4 (BitVec.ofNat 32 n)

/-- `memfault_cbor_encode_null`, memfault_minimal_cbor.c:201-204. -/
def encodeNull (e : Encoder σ) : Bool × Encoder σ := addToResult e [UInt8.ofNat (majorBits 7 ||| 22)]

/-- `memfault_cbor_encoder_memcpy_write`, memfault_minimal_cbor.c:206-210, on a context that is
the destination buffer; `none` is an access outside of it. -/
def memcpyWrite (buf : Option Bytes) (offset : Nat) (data : Bytes) : Option Bytes :=
  buf.bind fun b => memcpyIn b offset data

/-- The calls of the public interface. -/
inductive Call
  | unsigned (v : BitVec 32)
  | signed (v : BitVec 32)
  | longSigned (v : BitVec 64)
  | double (v : BitVec 64)
  | byteString (b : Bytes)
  | byteStringBegin (n : Nat)
  | string (s : Bytes)
  | stringBegin (n : Nat)
  | dictionaryBegin (n : Nat)
  | arrayBegin (n : Nat)
  | null
  | join (b : Bytes)
  deriving Repr, DecidableEq

/-- Dispatch of one public call. -/
def call (e : Encoder σ) : Call → Bool × Encoder σ
  | .unsigned v => encodeUnsigned e v
  | .signed v => encodeSigned e v
  | .longSigned v => encodeLongSigned e v
  | .double v => encodeDouble e v
  | .byteString b => encodeByteString e b
  | .byteStringBegin n => encodeByteStringBegin e n
  | .string s => encodeString e s
  | .stringBegin n => encodeStringBegin e n
  | .dictionaryBegin n => encodeDictionaryBegin e n
  | .arrayBegin n => encodeArrayBegin e n
  | .null => encodeNull e
  | .join b => join e b

/-- The calling pattern of all serializers: `a && b && ...`, stop at the first failure. -/
def callAll (e : Encoder σ) : List Call → Bool × Encoder σ
  | [] => (true, e)
  | c :: cs =>
    match call e c with
    | (true, e) => callAll e cs
    | (false, e) => (false, e)

end Mflt.Cbor
