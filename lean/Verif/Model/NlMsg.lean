import Verif.Model.Nfqueue

/-! The netlink messages of /repo/src/lib/nfqueue.c, byte by byte, and the set-up of a queue. The functions of libmnl and libnetfilter_queue that are used are modelled as they are documented: a header of 16 bytes,
attributes with a header of 4 bytes, padded to multiples of 4. The target is little-endian. -/

namespace Nfqlb.Nl

open Nfqlb

/-- A `uint16_t` in host byte order, as in `struct nlmsghdr` and `struct nlattr`, /repo/src/lib/nfqueue.c:33-35. -/
def le16 (x : Nat) : List UInt8 := [UInt8.ofNat x, UInt8.ofNat (x / 256)]

/-- A `uint32_t` in host byte order, as in `struct nlmsghdr`, /repo/src/lib/nfqueue.c:33-35. -/
def le32 (x : Nat) : List UInt8 := [UInt8.ofNat x, UInt8.ofNat (x / 256), UInt8.ofNat (x / 65536), UInt8.ofNat (x / 16777216)]

/-- `htons`, /repo/src/lib/nfqueue.c:40. -/
def be16 (x : Nat) : List UInt8 := [UInt8.ofNat (x / 256), UInt8.ofNat x]

/-- `htonl`, /repo/src/lib/nfqueue.c:167 (also in `nfq_nlmsg_verdict_put` etc.). -/
def be32 (x : Nat) : List UInt8 := [UInt8.ofNat (x / 16777216), UInt8.ofNat (x / 65536), UInt8.ofNat (x / 256), UInt8.ofNat x]

/-- A message that is being built in a buffer of `room` bytes, /repo/src/lib/nfqueue.c:31-43: its type, and what follows the `struct nlmsghdr`. -/
structure Build where
  room : Nat
  type : Nat
  body : List UInt8
  deriving Repr, DecidableEq

/-- `nfq_hdr_put`, /repo/src/lib/nfqueue.c:30-43 (NFNL_SUBSYS_QUEUE = 3, AF_UNSPEC = 0, NFNETLINK_V0 = 0); 20 bytes are written. -/
def hdrPut (room type queueNum : Nat) : Res Build :=
  if room < 20 then .ub else .ok ⟨room, 3 * 256 + type, [0, 0] ++ be16 queueNum⟩

/-- `mnl_attr_put`: /repo/src/lib/nfqueue.c:54-55, :141, :149, :157, :165-168 and :176. It does not check the room in the buffer. -/
def attrPut (b : Build) (type : Nat) (data : List UInt8) : Res Build :=
  let a := le16 (4 + data.length) ++ le16 type ++ data ++ List.replicate ((4 - data.length % 4) % 4) 0
  if b.room < 16 + b.body.length + a.length then .ub else .ok { b with body := b.body ++ a }

/-- The bytes that are sent, /repo/src/lib/nfqueue.c:68 (and :143 etc.): `nlmsg_len`, `nlmsg_type`, `nlmsg_flags` = NLM_F_REQUEST, `nlmsg_seq` = 0, `nlmsg_pid` = 0, and the body. -/
def bytes (b : Build) : List UInt8 := le32 (16 + b.body.length) ++ le16 b.type ++ le16 1 ++ le32 0 ++ le32 0 ++ b.body

/-- MNL_SOCKET_BUFFER_SIZE, the size of a page but at most 8192, /repo/src/lib/nfqueue.c:50 and :113. -/
def bufSize (page : Nat) : Nat := if page < 8192 then page else 8192

/-- `nfq_send_verdict` up to the sending, /repo/src/lib/nfqueue.c:45-55: attributes NFQA_VERDICT_HDR = 2 and NFQA_MARK = 3, message NFQNL_MSG_VERDICT = 1. -/
def verdictMsg (page : Nat) (v : Nfq.Verdict) : Res (List UInt8) := do
  let b ← hdrPut (bufSize page) 1 v.queue
  let b ← attrPut b 2 (be32 v.verdict ++ be32 v.id)
  let b ← attrPut b 3 (be32 v.mark)
  return bytes b

/-- `nfq_nlmsg_cfg_put_cmd`, as called in /repo/src/lib/nfqueue.c:140-141, :148-149 and :156-157: NFQA_CFG_CMD = 1 with the command and AF_INET = 2, in a message NFQNL_MSG_CONFIG = 2. -/
def cmdMsg (room queueNum cmd : Nat) : Res (List UInt8) := do
  let b ← hdrPut room 2 queueNum
  let b ← attrPut b 1 ([UInt8.ofNat cmd, 0] ++ be16 2)
  return bytes b

/-- The parameters, /repo/src/lib/nfqueue.c:164-168: NFQA_CFG_PARAMS = 2 with NFQNL_COPY_PACKET = 2, NFQA_CFG_FLAGS = 5 and NFQA_CFG_MASK = 4 with NFQA_CFG_F_GSO = 4. -/
def paramsMsg (room queueNum mtu : Nat) : Res (List UInt8) := do
  let b ← hdrPut room 2 queueNum
  let b ← attrPut b 2 (be32 mtu ++ [2])
  let b ← attrPut b 5 (be32 4)
  let b ← attrPut b 4 (be32 4)
  return bytes b

/-- The length of the queue, /repo/src/lib/nfqueue.c:175-176: NFQA_CFG_QUEUE_MAXLEN = 3. -/
def maxlenMsg (room queueNum queueLength : Nat) : Res (List UInt8) := do
  let b ← hdrPut room 2 queueNum
  let b ← attrPut b 3 (be32 queueLength)
  return bytes b

/-- `sizeof_buf`, /repo/src/lib/nfqueue.c:113 (`MNL_SOCKET_BUFFER_SIZE` is a long, so that nothing wraps). -/
def sizeofBuf (page mtu : Nat) : Nat := mtu + bufSize page / 2

/-- `newsize`, /repo/src/lib/nfqueue.c:198: unsigned arithmetic. -/
def newsize (queueLength mtu : Nat) : Nat := u32 (queueLength * mtu) / 2 / 4096 * 4096

/-- What the system does: the size of pages, which calls succeed, and the size of the receive buffer of the socket. The calls in /repo/src/lib/nfqueue.c:122-207. -/
structure Env where
  page : Nat
  openOk : Bool
  bindOk : Bool
  mallocOk : Bool
  /-- the i-th `mnl_socket_sendto` -/
  sendOk : Nat → Bool
  /-- what `getsockopt` returns for SO_RCVBUF, if it succeeds -/
  rcvbuf : Option Nat

/-- Sends of messages one after the other, /repo/src/lib/nfqueue.c:140-180: what is sent, and whether the program goes on. Numbers of sends from `i`. -/
def sendAll (env : Env) : Nat → List (Res (List UInt8)) → List (List UInt8) × Res Unit
  | _, [] => ([], .ok ())
  | i, m :: ms =>
    match m with
    | .ok bs =>
      if env.sendOk i = false then ([], .die)
      else
        let r := sendAll env (i + 1) ms
        (bs :: r.1, r.2)
    | .die => ([], .die)
    | .ub => ([], .ub)
    | .hang => ([], .hang)

/-- The messages of the set-up in their order, /repo/src/lib/nfqueue.c:140-176: NFQNL_CFG_CMD_PF_UNBIND = 4, NFQNL_CFG_CMD_PF_BIND = 3, NFQNL_CFG_CMD_BIND = 1, the parameters, the length. -/
def setupMsgs (room queueNum queueLength mtu : Nat) : List (Res (List UInt8)) :=
  [cmdMsg room 0 4, cmdMsg room 0 3, cmdMsg room queueNum 1, paramsMsg room queueNum mtu, maxlenMsg room queueNum queueLength]

/-- `nfqueueRun` up to the loop, /repo/src/lib/nfqueue.c:109-208: what is sent to the kernel; the program exits, or it goes on, with the size of the buffer for messages and the size that is set for the receive buffer of
the socket, if any. `handler`: `handlePacket` is set. -/
def setup (env : Env) (handler : Bool) (queueNum queueLength mtu : Nat) : List (List UInt8) × Res (Nat × Option Nat) :=
  if handler = false ∨ env.openOk = false ∨ env.bindOk = false ∨ env.mallocOk = false then ([], .die)
  else
    let r := sendAll env 0 (setupMsgs (sizeofBuf env.page mtu) queueNum queueLength mtu)
    (r.1, do
      r.2
      match env.rcvbuf with
      | some n => return (sizeofBuf env.page mtu, if newsize queueLength mtu > n then some (newsize queueLength mtu) else none)
      | none => return (sizeofBuf env.page mtu, none))

end Nfqlb.Nl
