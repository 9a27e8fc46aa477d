import Verif.Model.Go
/-!
# packetid_storage.go: memory of received packet IDs
-/
namespace Verif.PacketID

/-- `packetIDStorage` (packetid_storage.go:3-10).  The nil table of depth 0 is `[]`; every other
table has at least one word. -/
structure Stor where
  latest : W64
  table : List W64
  deriving DecidableEq, Repr

/-- `newPacketIDStorage` (packetid_storage.go:12-18).  Simplification: `depth` is a natural number,
so `depth+63` does not wrap (in Go it is a small option value). -/
def newStor (depth : Nat) : Stor :=
  if depth > 0 then { latest := 0, table := List.replicate ((depth + 63) / 64) 0 }
  else { latest := 0, table := [] }

/-- The loop of `shiftValue` (packetid_storage.go:48-56) with the carry `r` made explicit.
`64 - bitsAmount` is a wrapping `uint` subtraction. -/
def shiftLoop (bits : W64) : W64 → List W64 → List W64
  | _, [] => []
  | r, v :: vs => (r ||| goShl v bits) :: shiftLoop bits (goShr v (64 - bits)) vs

/-- `shiftValue` (packetid_storage.go:48-56). -/
def shiftValue (s : Stor) (bits : W64) : Stor := { s with table := shiftLoop bits 0 s.table }

/-- `setAtOffset(offset, true)` (packetid_storage.go:58-66); the `value = false` branch has no
caller.  `List.modify` outside the table would be a Go panic; see `push`, which only reaches it with
an offset inside the table. -/
def setAtOffset (s : Stor) (offset : W64) : Stor :=
  { s with table := s.table.modify (offset >>> 6).toNat (· ||| goShl 1 (offset &&& 0x3f)) }

/-- `getAtOffset` (packetid_storage.go:68-72); `none` is the index-out-of-range panic. -/
def getAtOffset (s : Stor) (offset : W64) : Option Bool :=
  match s.table[(offset >>> 6).toNat]? with
  | none => none
  | some w => some (w &&& goShl 1 (offset &&& 0x3f) != 0)

/-- `Push` (packetid_storage.go:20-46).  `none` is a panic.  `len(table)<<6` is computed in `int`
and converted; it is the wrapping 64-bit product here. -/
def push (s : Stor) (id : W64) : Option (Stor × Bool) :=
  if id > s.latest then
    let s1 := if s.table ≠ [] then setAtOffset (shiftValue s (id - s.latest)) 0 else s
    some ({ s1 with latest := id }, true)
  else if id = s.latest then some (s, false)
  else if s.latest - id ≥ (BitVec.ofNat 64 s.table.length) <<< 6 then some (s, false)
  else
    let offset := s.latest - id
    match getAtOffset s offset with
    | none => none
    | some true => some (s, false)
    | some false => some (setAtOffset s offset, true)

/-- A whole history of `Push` calls: the verdict for each ID. `none` if some call panics. -/
def run : Stor → List W64 → Option (List Bool)
  | _, [] => some []
  | s, id :: ids =>
    match push s id with
    | none => none
    | some (s', r) => (run s' ids).map (r :: ·)

/-- The storage a session creates from `SessionOptions.PacketIDStorageSize` (session.go:462-470):
0 means the default (`DefaultPacketIDStorageSize` = 256, session.go:38-52), 1 means depth 0,
negative means no storage (`none`). -/
def storOfOption (size : Int) : Option Stor :=
  let size := if size = 0 then 256 else size
  if size > 0 then
    let storageSize := size.toNat
    let storageSize := if storageSize = 1 then storageSize - 1 else storageSize
    some (newStor storageSize)
  else none

/-- State of the packet-ID check of a session: the storage and `unexpectedPacketIDCount`. -/
structure Check where
  stor : Option Stor
  unexpected : Nat
  deriving DecidableEq, Repr

/-- `checkAndRememberPacketID` (session.go:811-817) and its use in `readerLoop`
(session.go:935-943): a refused packet increments `unexpectedPacketIDCount`.  `none` is a panic.
Simplification: the counter is a natural number (in Go a wrapping uint64). -/
def Check.step (c : Check) (id : W64) : Option (Check × Bool) :=
  match c.stor with
  | none => some (c, true)
  | some s =>
    match push s id with
    | none => none
    | some (s', true) => some ({ c with stor := some s' }, true)
    | some (s', false) => some ({ stor := some s', unexpected := c.unexpected + 1 }, false)

/-- Verdicts for a history of decrypted packets and the final drop counter. -/
def Check.run : Check → List W64 → Option (List Bool × Nat)
  | c, [] => some ([], c.unexpected)
  | c, id :: ids =>
    match c.step id with
    | none => none
    | some (c', r) => (c'.run ids).map fun x => (r :: x.1, x.2)

/-- A session created with `PacketIDStorageSize = size` receives the packet IDs `ids`: the verdicts
(accepted or dropped) and the final value of `GetUnexpectedPacketIDCount`. -/
def receive (size : Int) (ids : List W64) : Option (List Bool × Nat) :=
  Check.run { stor := storOfOption size, unexpected := 0 } ids

end Verif.PacketID
