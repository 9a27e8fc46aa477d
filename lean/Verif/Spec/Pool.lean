import Verif.Model.Pool
/-!
# What a goroutine sends if nobody else is there

`comp n d vs` are the bytes made for variable `n` of the data `d` and of the bytes `vs`.
-/
namespace Verif.Pool

variable (comp : Name → Bytes → List Bytes → Bytes) (inp : Name → Bytes)

/-- A header and a payload. -/
def message (extra : List Bytes) : Bytes := comp .msgBuf (inp .msgBuf) (comp .msgHdr (inp .msgHdr) extra :: extra)

/-- A fragment header and a part of a payload. -/
def fragmentBytes : Bytes := comp .fragBuf (inp .fragBuf) [comp .fragHdr (inp .fragHdr) []]

/-- The packet of messages. -/
def packet (key : Bool) (messages : Bytes) : Bytes :=
  let hdr := comp .contHdr (inp .contHdr) [messages]
  let plain := comp .plain (inp .plain) [hdr, messages]
  if key then comp .enc (inp .enc) [plain, comp .iv (inp .iv) [hdr], hdr] else plain

/-- What leaves the session, or goes to the user, by a call. -/
def result : Fn → Option Bytes
  | .single key => some (packet comp inp key (message comp inp []))
  | .fragment => some (packet comp inp true (message comp inp [fragmentBytes comp inp]))
  | .flush => some (packet comp inp true (inp .old))
  | .read => some (inp .item)
  | _ => none

/-- The calls that give back what they take. -/
def Fn.tidy : Fn → Bool
  | .fragment | .dropped | .unheard | .readSmall => false
  | _ => true

end Verif.Pool
