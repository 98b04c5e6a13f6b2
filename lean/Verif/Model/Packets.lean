import Verif.Model.PropCodec
/-!
# Model of the admin port packets (`grf/utils.py`)

Texts are their UTF-8 bytes.
-/
namespace Grf.Packets
open PropC (splitNul)

/-- A format character: an integer of `k` bytes (`B`, `H`, `I`, `Q` and the signed `b`, `h`, `i`, `q`) or `z`, a text. For `grf/utils.py:31-39`. -/
inductive Fmt where
  | u (k : Nat)
  | s (k : Nat)
  | z
deriving DecidableEq, Repr

/-- An argument. For `grf/utils.py:31-39`. -/
inductive Arg where
  | int (v : Int)
  | text (b : Bytes)
deriving DecidableEq, Repr

/-- One field of `ttd_pack` (`grf/utils.py:31-39`): texts end with a zero byte (`{len(d)}sB`); the wrong kind of argument is an error of
`len` or of `struct.pack`. -/
def packField : Fmt → Arg → Option Bytes
  | .u k, .int v => packU k v
  | .s k, .int v => packS k v
  | .z, .text b => some (b ++ [0])
  | _, _ => none

/-- `ttd_pack` (`grf/utils.py:29-41`); `zip` stops with the shorter list. -/
def ttdPack (fmt : List Fmt) (args : List Arg) : Option Bytes := cat ((fmt.zip args).map fun p => packField p.1 p.2)

/-- `make_packet` (`grf/utils.py:44-47`). `bytes((size & 255, size >> 8, packet_type))` refuses numbers from 256 on. -/
def makePacket (type : Int) (fmt : List Fmt) (args : List Arg) : Option Bytes := do
  let data ← (if fmt.isEmpty then some [] else ttdPack fmt args)
  let size := data.length + 3
  let lo ← byteOf (size % 256 : Nat)
  let hi ← byteOf (size / 256 : Nat)
  let t ← byteOf type
  pure (lo :: hi :: t :: data)

/-- A text in UTF-8. For `grf/utils.py:69`. -/
def utf8 (s : String) : Bytes := s.toUTF8.toList

/-- The chat packet of a text (`grf/utils.py:69`). `ADMIN_EXTERNAL_CHAT` is 8 (`grf/utils.py:24`). -/
def chatPacket (t : Bytes) : Option Bytes := makePacket 8 [.z, .u 2, .z, .z] [.text (utf8 "grf-py"), .int 1, .text [], .text t]

/-- The first packet (`grf/utils.py:20-21,60`). -/
def joinPacket (password : Bytes) : Option Bytes :=
  makePacket 0 [.z, .z, .z] [.text password, .text (utf8 "grf-py live reload"), .text (utf8 "1.0")]

/-- The last packet (`grf/utils.py:75`). -/
def reloadPacket : Option Bytes := makePacket 5 [.z] [.text (utf8 "reload_newgrfs")]

/-- `msg.endswith('\n')`. For `grf/utils.py:62-73`. -/
def endsNewline (msg : Bytes) : Bool := msg.getLast? == some 10

/-- `msg.rstrip('\n')`. For `grf/utils.py:62-73`. -/
def rstrip (msg : Bytes) : Bytes := (msg.reverse.dropWhile (· == 10)).reverse

/-- The loop of `admin_logging` (`grf/utils.py:62-73`) over the messages of the queue up to `None`, with `prev_msg`: the packets written.
`none` is a failed packet. -/
def logLoop : Bytes → List Bytes → Option Bytes
  | _, [] => some []
  | prev, msg :: msgs =>
    if endsNewline msg then do
      let p ← chatPacket (prev ++ rstrip msg)
      let r ← logLoop [] msgs
      pure (p ++ r)
    else logLoop (prev ++ msg) msgs

/-- What `admin_logging` writes to the connection (`grf/utils.py:50-78`): the packet to join (0), the messages, the command (5). -/
def session (password : Bytes) (msgs : List Bytes) : Option Bytes :=
  cat [joinPacket password, logLoop [] msgs, reloadPacket]

end Grf.Packets
