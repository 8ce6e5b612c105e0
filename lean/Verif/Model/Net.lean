import Verif.Model.Py
/-!
# Model of `unpythonic/net/msg.py` and the sources and helpers of `unpythonic/net/util.py`

A source is the list of the chunks that it has yet to yield.  Simplifications: the checks that arguments are `bytes`
are left out; a `ReceiveBuffer` (net/util.py:29-80) is the byte string it holds; the source does not raise.
-/
namespace Unpy.Net

abbrev Bytes := List UInt8

/-- The decimal digits of `n`, most significant first, at most so many. -/
def digitsAux : Nat → Nat → Bytes
  | 0, _ => []
  | fuel + 1, n =>
    if n < 10 then [UInt8.ofNat (48 + n)] else digitsAux fuel (n / 10) ++ [UInt8.ofNat (48 + n % 10)]

/-- `str(n).encode("utf-8")` for `n ≥ 0`. -/
def digits (n : Nat) : Bytes := digitsAux (n + 1) n

/-- `\xff`, `v01`, `l`, `;` -/
def sync : UInt8 := 255
def semi : UInt8 := 59
def magic : Bytes := [118, 48, 49]
def ell : UInt8 := 108

/-- `encodemsg(data)` (net/msg.py:50-73). -/
def encodemsg (data : Bytes) : Bytes :=
  [sync] ++ magic ++ [ell] ++ digits data.length ++ [semi] ++ data

/-- The receive buffer, and the chunks to come. -/
structure St where
  buf : Bytes
  src : List Bytes
  deriving DecidableEq, Repr

/-- What may end a step of decoding early: `MessageHeaderParseError` (net/msg.py:153), `EOFError` raised at the end of
the source (net/msg.py:166), another exception. -/
inductive Stop where
  | parse
  | eof
  | err (e : PyErr)
  deriving DecidableEq, Repr

/-- `read_more_input` (net/msg.py:156-169) inside a loop that runs as long as `more` holds of the buffer. -/
def readWhile (more : Bytes → Bool) : List Bytes → Bytes → Except Stop Unit × St
  | [], buf => if more buf then (.error .eof, ⟨buf, []⟩) else (.ok (), ⟨buf, []⟩)
  | c :: cs, buf => if more buf then readWhile more cs (buf ++ c) else (.ok (), ⟨buf, c :: cs⟩)

/-- `synchronize` (net/msg.py:171-201). -/
def synchronize : List Bytes → Bytes → Except Stop Unit × St
  | [], buf =>
    if buf.contains sync then (.ok (), ⟨buf.dropWhile (fun b => b != sync), []⟩) else (.error .eof, ⟨[], []⟩)
  | c :: cs, buf =>
    if buf.contains sync then (.ok (), ⟨buf.dropWhile (fun b => b != sync), c :: cs⟩) else synchronize cs c

/-- The second loop of `read_header` (net/msg.py:221-226); `j`: unbound, or whether the last `find` succeeded. -/
def findSemi (j : Option Bool) : List Bytes → Bytes → Except Stop (Option Bool) × St
  | [], buf =>
    if buf.length < 4096 then
      if buf.contains semi then (.ok (some true), ⟨buf, []⟩) else (.error .eof, ⟨buf, []⟩)
    else (.ok j, ⟨buf, []⟩)
  | c :: cs, buf =>
    if buf.length < 4096 then
      if buf.contains semi then (.ok (some true), ⟨buf, c :: cs⟩) else findSemi (some false) cs (buf ++ c)
    else (.ok j, ⟨buf, c :: cs⟩)

/-- `read_header` (net/msg.py:203-233); `parse` is what `int(field.decode("utf-8"))` does. -/
def readHeader (parse : Bytes → Except PyErr Int) (st : St) : Except Stop Int × St :=
  match readWhile (fun b => b.length < 5) st.src st.buf with
  | (.error e, st) => (.error e, st)
  | (.ok _, st) =>
    if st.buf.take 1 ≠ [sync] then (.error .parse, st) else
    if (st.buf.drop 1).take 3 ≠ magic then (.error .parse, st) else
    if (st.buf.drop 4).take 1 ≠ [ell] then (.error .parse, st) else
    match findSemi none st.src st.buf with
    | (.error e, st) => (.error e, st)
    | (.ok none, st) => (.error (.err .UnboundLocalError), st)
    | (.ok (some false), st) => (.error .parse, st)
    | (.ok (some true), st) =>
      let field := (st.buf.drop 5).takeWhile (fun b => b != semi)
      match parse field with
      | .error e => (.error (.err e), st)
      | .ok n => (.ok n, { st with buf := (st.buf.dropWhile (fun b => b != semi)).drop 1 })

/-- `read_body` (net/msg.py:235-249); slices with a negative bound count from the end. -/
def readBody (n : Int) (st : St) : Except Stop Bytes × St :=
  match readWhile (fun b => (b.length : Int) < n) st.src st.buf with
  | (.error e, st) => (.error e, st)
  | (.ok _, st) =>
    let k := if n < 0 then (n + st.buf.length).toNat else n.toNat
    (.ok (st.buf.take k), { st with buf := st.buf.drop k })

/-- One pass through the loop of `decodemsg` (net/msg.py:253-256). -/
def attempt (parse : Bytes → Except PyErr Int) (st : St) : Except Stop Bytes × St :=
  match synchronize st.src st.buf with
  | (.error e, st) => (.error e, st)
  | (.ok _, st) =>
    match readHeader parse st with
    | (.error e, st) => (.error e, st)
    | (.ok n, st) => readBody n st

/-- The loop of `decodemsg` (net/msg.py:252-265), at most so many passes (`none`: not enough). -/
def decodeLoop (parse : Bytes → Except PyErr Int) : Nat → St → Option (Except PyErr (Option Bytes) × St)
  | 0, _ => none
  | fuel + 1, st =>
    match attempt parse st with
    | (.ok body, st) => some (.ok (some body), st)
    | (.error .parse, st) => decodeLoop parse fuel { st with buf := st.buf.drop 1 }
    | (.error .eof, st) => some (.ok none, st)
    | (.error (.err e), st) => some (.error e, st)

/-- `decodemsg(buf, source)` (net/msg.py:78-265), or `MessageDecoder.decode` (net/msg.py:297-299): the outcome
(`ok none`: `None`) and the buffer and source afterwards. -/
def decodemsg (parse : Bytes → Except PyErr Int) (st : St) : Option (Except PyErr (Option Bytes) × St) :=
  decodeLoop parse (st.buf.length + st.src.flatten.length + 1) st

/-- `MessageDecoder.get_buffered_data` (net/msg.py:301-312) -/
def getBufferedData (st : St) : Bytes := st.buf

/-! ## sources and helpers -/

/-- `bytessource(data, chunksize)` (net/util.py:97-105), from chunk `j` on, at most so many chunks. -/
def bytesChunks (data : Bytes) (chunksize : Nat) : Nat → Nat → List Bytes
  | 0, _ => []
  | fuel + 1, j =>
    if j * chunksize ≥ data.length then []
    else (data.drop (j * chunksize)).take ((j + 1) * chunksize - j * chunksize) :: bytesChunks data chunksize fuel (j + 1)

/-- All that it yields, for `chunksize ≥ 1`. -/
def bytessource (data : Bytes) (chunksize : Nat) : List Bytes := bytesChunks data chunksize (data.length + 1) 0

/-- A stream or socket: the bytes that will arrive, and how many are available each time it is asked.  A read of up
to `n` bytes gives at least one and at most as many as are available, and nothing only at the end. -/
structure Sock where
  stream : Bytes
  avail : List Nat
  deriving DecidableEq, Repr

/-- `sock.recv(n)`, `stream.read(n)`, for `n ≥ 1`. -/
def recv (n : Nat) (s : Sock) : Bytes × Sock :=
  let k := match s.avail with
    | [] => n
    | a :: _ => min n (max 1 a)
  (s.stream.take k, ⟨s.stream.drop k, s.avail.tail⟩)

/-- `recvall(n, sock)` (net/util.py:166-184), the loop, with the output so far. -/
def recvallLoop : Nat → Nat → Bytes → Sock → Option (Option Bytes × Sock)
  | 0, _, _, _ => none
  | fuel + 1, n, out, s =>
    if n = 0 then some (some out, s) else
    match recv n s with
    | (data, s') => if data.isEmpty then some (none, s') else recvallLoop fuel (n - data.length) (out ++ data) s'

/-- `recvall(n, sock)` (net/util.py:166-184). -/
def recvall (n : Nat) (s : Sock) : Option (Option Bytes × Sock) := recvallLoop (n + 1) n [] s

/-- `socketsource(sock, chunksize)` (net/util.py:154-162); `streamsource` (net/util.py:128-134) is the same, with
4096 for the chunk size whatever its argument. -/
def socketChunks (chunksize : Nat) : Nat → Sock → List Bytes
  | 0, _ => []
  | fuel + 1, s =>
    match recv chunksize s with
    | (data, s') => if data.length = 0 then [] else data :: socketChunks chunksize fuel s'
def socketsource (chunksize : Nat) (s : Sock) : List Bytes := socketChunks chunksize (s.stream.length + 1) s

/-- `netstringify(data)` (net/util.py:186-197). -/
def netstringify (data : Bytes) : Bytes := digits data.length ++ [58] ++ data ++ [44]

end Unpy.Net
