import Verif.Model.PubSub
/-
Model of pkg/topology/hash.go and of the paths the hub publishes on and attaches to.
-/
namespace Swoll.Hash
open Swoll

/-- One bit of the CRC: the inner loop with which `hash/crc64` fills its table.
(Library, used at hash.go:5, 8.) -/
def crcBit (c : BitVec 64) : BitVec 64 :=
  if c.getLsbD 0 then (c >>> 1) ^^^ 0xC96C5795D7870F42#64 else c >>> 1

/-- One byte. (Library, used at hash.go:8.) -/
def crcByte (c : BitVec 64) (b : BitVec 8) : BitVec 64 :=
  let c := c ^^^ b.setWidth 64
  crcBit (crcBit (crcBit (crcBit (crcBit (crcBit (crcBit (crcBit c)))))))

/-- `crc64.Checksum(data, crc64.MakeTable(crc64.ECMA))`, standard library, used at
pkg/topology/hash.go:5, 8. -/
def crc64 (data : List (BitVec 8)) : BitVec 64 :=
  ~~~ (data.foldl crcByte (~~~ 0#64))

/-- `hash`, hash.go:7-15, over an arbitrary checksum of the string. -/
def hash (crc : String → BitVec 64) (s : String) : BitVec 64 :=
  if crc s = 0 then 1 else crc s

/-- The loop of `hashPath`, hash.go:20-26. -/
def hashComps (crc : String → BitVec 64) : List String → List (BitVec 64)
  | [] => []
  | p :: ps => if p = "" then [] else hash crc p :: hashComps crc ps

/-- `hashPath`, hash.go:17-29. -/
def hashPath (crc : String → BitVec 64) (paths : List String) : List (BitVec 64) :=
  hash crc "/" :: hashComps crc paths

/-- `swJobStream`, `swNsStream`, pkg/topology/consts.go:5-7. -/
def jobStream : String := "job"
/-- `swNsStream`, pkg/topology/consts.go:5-7. -/
def nsStream : String := "ns"

/-- What the hub reads of an event to publish it: container namespace, pod and name, and the
syscall's name. (hub.go:190-194) -/
structure EvPath where
  kubeNs : String
  pod : String
  container : String
  syscall : String

/-- The path on which `(*Hub).WriteEvent` publishes, pkg/topology/hub.go:190-194. -/
def eventPath (crc : String → BitVec 64) (e : EvPath) : List (BitVec 64) :=
  hashPath crc [nsStream, e.kubeNs, e.pod, e.container, e.syscall]

/-- The path `(*Hub).AttachPath` subscribes to, hub.go:436-444. -/
def attachPath (crc : String → BitVec 64) (paths : List String) : List (BitVec 64) :=
  hashPath crc (nsStream :: paths)

/-- The path `(*Hub).AttachTrace` subscribes to, hub.go:447-452, which is also the one
`(*JobContext).WriteEvent` publishes on, pkg/topology/job.go:232, 241, 245. -/
def tracePath (crc : String → BitVec 64) (jobID : String) : List (BitVec 64) :=
  hashPath crc [jobStream, jobID]

/-- The bytes of a string. (hash.go:8) -/
def bytes (s : String) : List (BitVec 8) := s.toUTF8.data.toList.map (·.toBitVec)

/-- The checksum actually used. (hash.go:8) -/
def crcString (s : String) : BitVec 64 := crc64 (bytes s)

end Swoll.Hash
