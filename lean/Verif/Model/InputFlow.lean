import Verif.Model.AioListener
import Verif.Model.AioClient
/-!
# The asyncio listener and client with the flow control of their input

In `Model/AioListener.lean` and `Model/AioClient.lean` the peer's bytes come whenever the peer likes. Here the
`asyncio.StreamReader` of a connection (the argument `reader` of aio_listener.py:180, the result of `open_connection` in
aio_client.py:155) holds them back: `feed_data` stops the transport from reading when more than `2 * limit` bytes are in
the buffer; a `readexactly` that has to wait, and one that leaves at most `limit` bytes, lets it go on. The transport takes
at most `chunk` bytes from the socket at once, and none once it has been closed.

Simplifications: those of the two models. The kernel's buffers are the peer's.
-/
namespace Bolt

/-- The limit of the `StreamReader` (`start_server` in aio_listener.py:111 and `open_connection` in aio_client.py:155 leave it
at its default) and what the transport reads at once. -/
structure InCfg where
  limit : Nat
  chunk : Nat
  deriving DecidableEq, Repr

/-- the values of asyncio: `_DEFAULT_LIMIT` of asyncio/streams.py and `max_size` of asyncio/selector_events.py
(aio_listener.py:111, aio_client.py:155) -/
def inAsyncio : InCfg := ⟨65536, 262144⟩

/-- `feed_data`: with `len` bytes in the buffer afterwards, is the transport paused? (the readers of aio_listener.py:180,
aio_client.py:155) -/
def InCfg.fed (c : InCfg) (len : Nat) : Bool := decide (2 * c.limit < len)

/-- `readexactly` (aio_listener.py:190, 204, 207, 211, aio_client.py:229, 231): is the transport still paused after it, if it
was (`paused`)? It `waits`, or leaves `len` bytes in the buffer. -/
def InCfg.ran (c : InCfg) (paused waits : Bool) (len : Nat) : Bool := paused && !waits && decide (c.limit < len)

/-! ## The listener -/

/-- the reader is suspended in a `readexactly` (aio_listener.py:190, 204, 207, 211) -/
def LSt.waits (s : LSt) : Bool :=
  decide (s.tail = .reading) && decide (s.rd.phase ≠ .stopped) && (readerIter s.rd s.buf s.eof).isNone

/-- a connection, and whether its transport has been told not to read (aio_listener.py:180) -/
structure LInSt where
  l : LSt := {}
  paused : Bool := false
  deriving DecidableEq, Repr

/-- does the transport take `bs` from the socket? (the connection of aio_listener.py:180) -/
def LInSt.takes (c : InCfg) (s : LInSt) (bs : Bytes) : Bool :=
  !s.paused && !s.l.closed && !s.l.eof && decide (bs.length ≤ c.chunk)

/-- One event; events that cannot happen change nothing (aio_listener.py:180-271). -/
def lInStep (c : InCfg) (svc : Services) (s : LInSt) : LEv → LInSt
  | .data bs =>
    if s.takes c bs then
      { l := lstep svc s.l (.data bs), paused := c.fed (lstep svc s.l (.data bs)).buf.length }
    else s
  | .reader =>
    { l := lstep svc s.l .reader, paused := c.ran s.paused s.l.waits (lstep svc s.l .reader).buf.length }
  | e => { s with l := lstep svc s.l e }

/-- a schedule on a new connection (aio_listener.py:111, 180-187) -/
def lInRun (c : InCfg) (svc : Services) (reg : Registry) (evs : List LEv) : LInSt :=
  evs.foldl (lInStep c svc) { l := { reg := reg } }

/-! ## The client -/

/-- the reading task is suspended in a `readexactly` (aio_client.py:229, 231) -/
def AConn.waits (k : AConn) : Bool :=
  !k.cancelled && !k.lost && !k.eof &&
    match k.pc with
    | .hdr => decide (k.buf.length < PkgClass.boltResponse.headerSize)
    | .body h => match bodySize h with
      | .ok size => decide (k.buf.length < size.toNat)
      | .error _ => false
    | _ => false

/-- the client, and which connections have been told not to read (aio_client.py:155) -/
structure AInSt where
  a : ASt := {}
  paused : Nat → Bool := fun _ => false

/-- does the transport of connection `n` take `bs` from the socket? (aio_client.py:155) -/
def AInSt.takes (c : InCfg) (s : AInSt) (n : Nat) (bs : Bytes) : Bool :=
  match s.a.conns[n]? with
  | some k => !s.paused n && !k.closed && !k.eof && !k.lost && decide (bs.length ≤ c.chunk)
  | none => false

/-- the bytes in the buffer of connection `n` (the reader of aio_client.py:155) -/
def ASt.bufLen (s : ASt) (n : Nat) : Nat := ((s.conns[n]?).map fun k => k.buf.length).getD 0

/-- One event; events that cannot happen change nothing (aio_client.py:145-260). -/
def aInStep (c : InCfg) (v : PyVer) (s : AInSt) : AEv → AInSt
  | .data n bs =>
    if s.takes c n bs then
      { a := astep v s.a (.data n bs),
        paused := fun m => if m = n then c.fed ((astep v s.a (.data n bs)).bufLen n) else s.paused m }
    else s
  | .recv n =>
    { a := astep v s.a (.recv n),
      paused := fun m =>
        if m = n then c.ran (s.paused n) (((s.a.conns[n]?).map AConn.waits).getD false) ((astep v s.a (.recv n)).bufLen n)
        else s.paused m }
  | e => { s with a := astep v s.a e }

/-- a schedule on a new client (aio_client.py:51-58) -/
def aInRun (c : InCfg) (v : PyVer) (evs : List AEv) : AInSt := evs.foldl (aInStep c v) {}

end Bolt
