import Verif.Model.Py
/-!
# Cartridge and ROM images, cartridge.py
-/
namespace Atr

/-- a row of `known_cart_types`, cartridge.py:15-94: number, whether the name contains "5200" (the only use made of the
name), total size in KB, and the remaining columns of the tuple -/
structure CartType where
  id : Nat
  is5200 : Bool
  size : Nat
  rest : List Nat
deriving DecidableEq, Repr

/-- `known_cart_types`, cartridge.py:15-94, in order -/
def knownCarts : List CartType := [
  ⟨0, false, 0, []⟩,
  ⟨57, false, 2, [2, 0, 47104]⟩,
  ⟨58, false, 4, [4, 0, 45056]⟩,
  ⟨59, false, 4, [4, 0, 0, 36864]⟩,
  ⟨1, false, 8, [8, 0, 40960]⟩,
  ⟨21, false, 8, []⟩,
  ⟨2, false, 16, [16, 0, 32768]⟩,
  ⟨44, false, 8, []⟩,
  ⟨15, false, 16, []⟩,
  ⟨3, false, 16, [4, 12, 45056, 4, 0, 40960]⟩,
  ⟨45, false, 16, [4, 12, 45056, 4, 0, 40960]⟩,
  ⟨12, false, 32, [8, 24, 40960, 8, 0, 32768]⟩,
  ⟨13, false, 64, [8, 56, 40960, 8, 0, 32768]⟩,
  ⟨67, false, 64, [8, 56, 40960, 8, 0, 32768]⟩,
  ⟨14, false, 128, [8, 120, 40960, 8, 0, 32768]⟩,
  ⟨23, false, 256, [8, 248, 40960, 8, 0, 32768]⟩,
  ⟨24, false, 512, [8, 504, 40960, 8, 0, 32768]⟩,
  ⟨25, false, 1024, [8, 1016, 40960, 8, 0, 32768]⟩,
  ⟨33, false, 32, [8, 24, 40960, 8, 0, 32768]⟩,
  ⟨34, false, 64, [8, 56, 40960, 8, 0, 32768]⟩,
  ⟨35, false, 128, [8, 120, 40960, 8, 0, 32768]⟩,
  ⟨36, false, 256, [8, 248, 40960, 8, 0, 32768]⟩,
  ⟨37, false, 512, [8, 504, 40960, 8, 0, 32768]⟩,
  ⟨38, false, 1024, [8, 1016, 40960, 8, 0, 32768]⟩,
  ⟨22, false, 32, []⟩,
  ⟨8, false, 64, []⟩,
  ⟨9, false, 64, []⟩,
  ⟨10, false, 64, []⟩,
  ⟨11, false, 64, []⟩,
  ⟨43, false, 128, []⟩,
  ⟨17, false, 128, []⟩,
  ⟨18, false, 40, []⟩,
  ⟨26, false, 16, []⟩,
  ⟨27, false, 32, []⟩,
  ⟨28, false, 64, []⟩,
  ⟨29, false, 128, []⟩,
  ⟨30, false, 256, []⟩,
  ⟨31, false, 512, []⟩,
  ⟨32, false, 1024, []⟩,
  ⟨39, false, 8, []⟩,
  ⟨46, false, 4, []⟩,
  ⟨40, false, 16, [16, 0, 32768]⟩,
  ⟨60, false, 32, []⟩,
  ⟨41, false, 128, []⟩,
  ⟨42, false, 1024, []⟩,
  ⟨47, false, 32, []⟩,
  ⟨48, false, 64, []⟩,
  ⟨49, false, 128, []⟩,
  ⟨50, false, 64, []⟩,
  ⟨51, false, 128, []⟩,
  ⟨52, false, 32, []⟩,
  ⟨53, false, 8, [8, 0, 32768]⟩,
  ⟨5, false, 32, []⟩,
  ⟨54, false, 128, []⟩,
  ⟨55, false, 256, []⟩,
  ⟨56, false, 512, []⟩,
  ⟨61, false, 2048, []⟩,
  ⟨62, false, 131072, []⟩,
  ⟨63, false, 4096, []⟩,
  ⟨64, false, 2048, []⟩,
  ⟨65, false, 32768, []⟩,
  ⟨66, false, 65536, []⟩,
  ⟨20, true, 4, [4, 0, 32768]⟩,
  ⟨19, true, 8, [8, 0, 32768]⟩,
  ⟨4, true, 32, [32, 0, 16384]⟩,
  ⟨16, true, 16, []⟩,
  ⟨6, true, 16, []⟩,
  ⟨7, true, 40, []⟩]

/-- `get_cart`, cartridge.py:107-111.  `known_cart_type_map` (line 96) keeps the last row with a number; the numbers are
distinct. -/
def getCart (t : Nat) : Except Err CartType :=
  match knownCarts.find? (·.id == t) with
  | some c => .ok c
  | none => .error .invalidDiskImage

/-- the attributes of `A8CartHeader`, cartridge.py:114-158; `cartType = none` is `-1` -/
structure CartHeader where
  cartType : Option Nat := none
  is5200 : Bool := false
  cartSize : Nat := 0
  crc : Nat := 0
  headerOffset : Nat := 0
  banks : List Nat := []
  bankSize : Nat := 0
  bankOrigin : Nat := 0
  mainSize : Nat := 0
  mainOffset : Nat := 0
  mainOrigin : Nat := 0
deriving DecidableEq, Repr

/-- the `while s > 0` loop of `set_type`, cartridge.py:192-195.  `s` may go below zero in Python, which ends the loop just
as zero does.  A bank size of zero would loop for ever (`fuel` runs out); no row of the table has one. -/
def bankLoop (bankSize : Nat) : Nat → Nat → Nat → List Nat
  | 0, _, _ => []
  | fuel + 1, s, offset => if s > 0 then offset :: bankLoop bankSize fuel (s - bankSize) (offset + bankSize) else []

/-- `A8CartHeader.set_type`, cartridge.py:180-195 -/
def CartHeader.setType (h : CartHeader) (t : Nat) : Except Err CartHeader :=
  match getCart t with
  | .error e => .error e
  | .ok c =>
    let h := { h with cartType := some t, is5200 := c.is5200, cartSize := c.size, mainSize := c.size }
    let h := match c.rest with
      | ms :: mo :: org :: _ => { h with mainSize := ms, mainOffset := mo, mainOrigin := org }
      | _ => h
    match c.rest with
    | _ :: _ :: _ :: bs :: bo :: borg :: _ =>
      .ok { h with bankSize := bs, bankOrigin := borg, banks := bankLoop bs (h.cartSize - h.mainSize) (h.cartSize - h.mainSize) bo }
    | _ => .ok h

/-- big-endian `>u4` load -/
def be32 (a b c d : UInt8) : Nat := le32 d c b a

/-- big-endian `>u4` store (wraps) -/
def encBe32 (n : Nat) : Bytes := (enc32 n).reverse

/-- `b'CART'` -/
def cartMagic : Bytes := [0x43, 0x41, 0x52, 0x54]

/-- `A8CartHeader(bytes)`, cartridge.py:124-158 -/
def CartHeader.decode (b : Bytes) : Except Err CartHeader :=
  match b with
  | [m0, m1, m2, m3, t0, t1, t2, t3, c0, c1, c2, c3, _, _, _, _] =>
    if [m0, m1, m2, m3] ≠ cartMagic then .error .invalidCartHeader
    else CartHeader.setType { crc := be32 c0 c1 c2 c3, headerOffset := 16 } (be32 t0 t1 t2 t3)
  | _ => .error .invalidCartHeader

/-- `to_array`, cartridge.py:171-178; a type of `-1` wraps to `0xffffffff` -/
def CartHeader.toArray (h : CartHeader) : Bytes :=
  cartMagic ++ encBe32 (h.cartType.getD 0xffffffff) ++ encBe32 h.crc ++ [0, 0, 0, 0]

/-- `read_header`, cartridge.py:211-216 -/
def readCartHeader (data : Bytes) : Except Err CartHeader :=
  match CartHeader.decode (data.take 16) with
  | .error .invalidCartHeader => .ok {}
  | r => r

/-- `check_size`, cartridge.py:228-237 -/
def cartCheckSize (data : Bytes) (h : CartHeader) : Except Err Unit :=
  match h.cartType with
  | none => .ok ()
  | some t =>
    match getCart t with
    | .error e => .error e
    | .ok c =>
      let n := data.length - h.headerOffset
      if n % 1024 > 0 then .error .invalidDiskImage
      else if n / 1024 ≠ c.size then .error .invalidDiskImage
      else .ok ()

/-- construction of an `AtariCartImage`, cartridge.py:280-283 with `DiskImageBase.setup`, diskimages.py:154-159 (the
metadata methods do nothing for cartridges, `A8CartHeader.check_size` only fills `possible_types`) -/
def openCart (data : Bytes) (t : Nat) : Except Err CartHeader :=
  match getCart t with
  | .error e => .error e
  | .ok _ =>
    match readCartHeader data with
    | .error e => .error e
    | .ok h =>
      match cartCheckSize data h with
      | .error e => .error e
      | .ok () => .ok h

/-- `strict_check` of `Atari8bitCartImage` (`five = false`) and `Atari5200CartImage` (`five = true`), cartridge.py:285-303 -/
def cartStrictCheck (h : CartHeader) (t : Nat) (five : Bool) : Except Err Unit :=
  if h.is5200 ≠ five then .error .invalidDiskImage
  else match h.cartType with
    | none => .error .invalidDiskImage
    | some ht => if ht ≠ t then .error .invalidDiskImage else .ok ()

/-- `relaxed_check`, cartridge.py:221-226 -/
def cartRelaxedCheck (data : Bytes) (h : CartHeader) (t : Nat) : Except Err CartHeader :=
  if h.cartType ≠ some t then
    match CartHeader.setType {} t with
    | .error e => .error e
    | .ok h =>
      match cartCheckSize data h with
      | .error e => .error e
      | .ok () => .ok h
  else .ok h

/-- the byte ranges of `get_main_segment` and `get_banked_segments`, cartridge.py:247-262, in the order of
`parse_segments` (lines 239-245, after the header segment) -/
def cartRanges (h : CartHeader) : List (Nat × Nat) :=
  (h.headerOffset + h.mainOffset * 1024, h.headerOffset + h.mainOffset * 1024 + h.mainSize * 1024) ::
    h.banks.map fun o => (h.headerOffset + o * 1024, h.headerOffset + o * 1024 + h.bankSize * 1024)

/-- `create_emulator_boot_segment`, cartridge.py:264-276: the bytes of the segment (`calc_crc_from_data` sets the checksum to
zero) -/
def cartBoot (data : Bytes) (h : CartHeader) : Bytes :=
  if data.length % 1024 = 0 then ({ h with crc := 0 } : CartHeader).toArray ++ data else data

/-- `add_cart_header`, cartridge.py:306-313: the header is created without a type -/
def addCartHeader (data : Bytes) : Bytes := ({ headerOffset := 16 } : CartHeader).toArray ++ data

/-- `RomImage.check_size`, cartridge.py:326-329; `size & (size - 1)` with `0 & -1 = 0` -/
def romCheckSize (size : Nat) : Except Err Unit :=
  if (if size = 0 then 0 else size &&& (size - 1)) ≠ 0 then .error .invalidDiskImage else .ok ()

/-- one entry of a zip archive as `zipfile` gives it -/
structure ZipItem where
  fileSize : Nat
  data : Bytes

/-- construction of a `MameZipImage`, mame.py:15-57, for data that `zipfile` recognises: the ROM data and the ranges of the
segments.  `np.concatenate([])` raises `ValueError`. -/
def openMame (items : List ZipItem) : Except Err (Bytes × List (Nat × Nat)) :=
  if items.any fun i => i.fileSize % 16 > 0 then .error .invalidDiskImage
  else if items.isEmpty then .error .valueError
  else .ok ((items.map (·.data)).flatten,
    (items.foldl (fun (acc : List (Nat × Nat) × Nat) i => (acc.1 ++ [(acc.2, acc.2 + i.fileSize)], acc.2 + i.fileSize)) ([], 0)).1)

end Atr
