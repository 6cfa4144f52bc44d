import Verif.Model.Outcome
/-! # resim/utils/uuid.hh, uuid.cc and resim/utils/proto/uuid_to_proto.cc

`std::string` is a list of characters.  libuuid (`uuid_parse`, `uuid_unparse_lower`, not part of /repo) is modelled by its
documented algorithm: a check of all 36 positions followed by conversion of the hexadecimal groups. -/
namespace Verif

/-- `UUID`, resim/utils/uuid.hh:19-50: sixteen bytes (`id_`, line 49). -/
structure Uuid where
  bytes : List (Fin 256)
  len : bytes.length = 16
  deriving DecidableEq

namespace Uuid

/-- `UUID::UUID()`, resim/utils/uuid.cc:19 with `NULL_ID` (line 16). -/
def null : Uuid := ⟨List.replicate 16 0, by simp⟩

/-- `is_null`, resim/utils/uuid.cc:48. -/
def isNull (u : Uuid) : Bool := decide (u.bytes = null.bytes)

/-- `operator==`, resim/utils/uuid.cc:44. -/
def eq (a b : Uuid) : Bool := decide (a.bytes = b.bytes)

/-- A lower-case hexadecimal digit as printed by `%02x` in libuuid's `uuid_unparse_lower` (called at resim/utils/uuid.cc:40). -/
def hexDigit (n : Fin 16) : Char :=
  if n.val < 10 then Char.ofNat ('0'.toNat + n.val) else Char.ofNat ('a'.toNat + (n.val - 10))

/-- High half of a byte, used in `uuid_unparse_lower` (resim/utils/uuid.cc:40). -/
def hi (b : Fin 256) : Fin 16 := ⟨b.val / 16, by omega⟩

/-- Low half of a byte, used in `uuid_unparse_lower` (resim/utils/uuid.cc:40). -/
def lo (b : Fin 256) : Fin 16 := ⟨b.val % 16, by omega⟩

/-- The loop of libuuid's `uuid_unparse_lower` (called at resim/utils/uuid.cc:40): two digits per byte, a dash before bytes 4, 6, 8
and 10.  `i` is the index of the next byte. -/
def unparseFrom (i : Nat) : List (Fin 256) → List Char
  | [] => []
  | b :: bs =>
    (if i = 4 ∨ i = 6 ∨ i = 8 ∨ i = 10 then ['-'] else []) ++ hexDigit (hi b) :: hexDigit (lo b) :: unparseFrom (i + 1) bs

/-- `to_string`, resim/utils/uuid.cc:35-42. -/
def toStr (u : Uuid) : List Char := unparseFrom 0 u.bytes

/-- Value of a hexadecimal digit of either case (`isxdigit`, `strtoul` in libuuid's `uuid_parse`, called at resim/utils/uuid.cc:25). -/
def hexVal (c : Char) : Option (Fin 16) :=
  if h : '0'.toNat ≤ c.toNat ∧ c.toNat ≤ '9'.toNat then
    some ⟨c.toNat - '0'.toNat, by have : '0'.toNat = 48 := rfl; have : '9'.toNat = 57 := rfl; omega⟩
  else if h : 'a'.toNat ≤ c.toNat ∧ c.toNat ≤ 'f'.toNat then
    some ⟨c.toNat - 'a'.toNat + 10, by have : 'a'.toNat = 97 := rfl; have : 'f'.toNat = 102 := rfl; omega⟩
  else if h : 'A'.toNat ≤ c.toNat ∧ c.toNat ≤ 'F'.toNat then
    some ⟨c.toNat - 'A'.toNat + 10, by have : 'A'.toNat = 65 := rfl; have : 'F'.toNat = 70 := rfl; omega⟩
  else none

/-- The bytes seen through `str.c_str()` by a C function: up to the first NUL (resim/utils/uuid.cc:25). -/
def cStr (s : List Char) : List Char := s.takeWhile (fun c => c != '\x00')

/-- The checking loop of libuuid's `uuid_parse` (called at resim/utils/uuid.cc:25), merged with the collection of digits: `i` is the
position; dashes at 8, 13, 18 and 23, digits elsewhere. -/
def digitsFrom (i : Nat) : List Char → Option (List (Fin 16))
  | [] => some []
  | c :: cs =>
    if i = 8 ∨ i = 13 ∨ i = 18 ∨ i = 23 then
      if c = '-' then digitsFrom (i + 1) cs else none
    else
      match hexVal c with
      | none => none
      | some d => (digitsFrom (i + 1) cs).map (fun ds => d :: ds)

/-- Two digits make a byte, most significant first (group conversion and `uuid_pack` of libuuid, called at resim/utils/uuid.cc:25). -/
def pairBytes : List (Fin 16) → List (Fin 256)
  | a :: b :: rest => ⟨16 * a.val + b.val, by omega⟩ :: pairBytes rest
  | _ => []

/-- `uuid_parse` as called at resim/utils/uuid.cc:25: `none` is the error result. -/
def uuidParse (s : List Char) : Option (List (Fin 256)) :=
  let c := cStr s
  if c.length = 36 then (digitsFrom 0 c).map pairBytes else none

/-- `UUID::UUID(const std::string&)`, resim/utils/uuid.cc:23-27.  (A parse of other than 16 bytes would write out of bounds: `ub`;
shown never to happen.) -/
def ofStr (s : List Char) : Outcome Uuid :=
  match uuidParse s with
  | none => .throw "Invalid UUID string!"
  | some bs => if h : bs.length = 16 then .ok ⟨bs, h⟩ else .ub "uuid_parse wrote out of bounds"

/-- The protobuf message `UUID`, resim/utils/proto/uuid.proto:5-7 (`data` defaults to the empty string). -/
structure Msg where
  data : List Char := []
  deriving DecidableEq

/-- `pack`, resim/utils/proto/uuid_to_proto.cc:13-17, into a message with previous content `out` (`none`: null pointer). -/
def pack (u : Uuid) (out : Option Msg) : Outcome Msg := do
  Outcome.reassert (out.isSome = true) "Can't pack into invalid proto!"
  pure { data := u.toStr }

/-- `unpack`, resim/utils/proto/uuid_to_proto.cc:19. -/
def unpack (m : Msg) : Outcome Uuid := ofStr m.data

/-- `std::hash<UUID>`, resim/utils/uuid.hh:56-61: any string hash `h` applied to the printed form. -/
def hash (h : List Char → Nat) (u : Uuid) : Nat := h u.toStr

end Uuid
end Verif
