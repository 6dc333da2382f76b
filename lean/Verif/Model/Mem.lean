/-
Byte-addressed memory of a process.

Models the view of a process's memory that ulpatch has through
`/proc/PID/mem` (src/task/memcpy.c:66-92, `pread`/`pwrite` at an address) and
of the host's private copy of a patch image.
-/
namespace Ulp

abbrev Byte := BitVec 8
abbrev Addr := BitVec 64

/-- Contents of a 64-bit address space. -/
abbrev Mem := Addr → Byte

/-- Store the bytes `bs` at `a` (`memcpy`/`pwrite` of `bs.length` bytes). -/
def Mem.write (m : Mem) (a : Addr) (bs : List Byte) : Mem := fun x =>
  match bs[(x - a).toNat]? with
  | some b => b
  | none => m x

/-- The `n` bytes at `a` (`memcpy`/`pread` of `n` bytes). -/
def Mem.read (m : Mem) (a : Addr) (n : Nat) : List Byte :=
  (List.range n).map fun i => m (a + BitVec.ofNat 64 i)

/-- The low `n` bytes of `v`, least significant first: the object
representation of an `n`-byte unsigned integer on both supported machines
(x86_64 and aarch64 are little-endian). -/
def leBytes (n : Nat) (v : BitVec 64) : List Byte :=
  (List.range n).map fun i => (v >>> (8 * i)).setWidth 8

/-- The number whose little-endian representation is the given byte list. -/
def leNat : List Byte → Nat
  | [] => 0
  | b :: bs => b.toNat + 256 * leNat bs

/-- Load an `n`-byte little-endian unsigned integer. -/
def Mem.load (m : Mem) (a : Addr) (n : Nat) : BitVec 64 :=
  BitVec.ofNat 64 (leNat (m.read a n))

end Ulp
