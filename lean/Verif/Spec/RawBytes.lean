import Verif.Spec.Chain
/-
What an indexer that reads raw account data expects to find, byte by byte. Written down from the `#[repr(C)]` structs,
not through the decoders of the model.
-/
namespace AOB

/-- `n` bytes at offset `off`. -/
def part (d : Bytes) (off n : Nat) : Bytes := (d.drop off).take n

def sideByte : Side → UInt8
  | .bid => 0
  | .ask => 1

/-- The 40 bytes of an event: tag, side, zeros, (quote quantity of a fill,) order id, base quantity. -/
def eventBytes {C : Type} : Event C → Bytes
  | .fill takerSide makerId base quote _ _ =>
      [0, sideByte takerSide, 0, 0, 0, 0, 0, 0] ++ toLE 8 quote ++ toLE 16 makerId ++ toLE 8 base
  | .out side id base _ =>
      [1, sideByte side, 0, 0, 0, 0, 0, 0, 0, 0, 0, 0, 0, 0, 0, 0] ++ toLE 16 id ++ toLE 8 base

/-- The callback infos of an event: the maker's, and the taker's after it if it is a fill. -/
def eventInfos {C : Type} : Event C → List C
  | .fill _ _ _ _ maker taker => [maker, taker]
  | .out _ _ _ c => [c]

/-- The bytes of an event queue with room for `cap` events, whose oldest event is in slot `head`. -/
structure QueueBytes {C : Type} [Pod C] (d : Bytes) (cap head seq : Nat) (es : List (Event C)) : Prop where
  length : d.length = 32 + cap * 40 + 2 * cap * Pod.size C
  head_lt : head < cap
  fits : es.length ≤ cap
  header : part d 0 32 = toLE 8 129 ++ toLE 8 head ++ toLE 8 es.length ++ toLE 8 seq
  event : ∀ i (h : i < es.length), part d (32 + (head + i) % cap * 40) 40 = eventBytes es[i]
  infos : ∀ i (h : i < es.length) j (hj : j < (eventInfos es[i]).length),
    part d (32 + cap * 40 + (2 * ((head + i) % cap) + j) * Pod.size C) (Pod.size C) = Pod.toBytes (eventInfos es[i])[j]

/-- The bytes of a slab with room for `cap` orders, in which the `i`-th best order is in slot `slots[i]`. The
`extra` bytes at the end are those of accounts of an odd size. -/
structure SlabBytes {C : Type} [Pod C] (d : Bytes) (tag cap extra : Nat) (slots : List Nat) (os : List (Order C)) :
    Prop where
  length : d.length = 40 + cap * 24 + (cap - 1) * 32 + cap * Pod.size C + extra
  extra_lt : extra < 24 + 32 + Pod.size C
  cap_pos : 0 < cap
  slots_len : slots.length = os.length
  slots_lt : ∀ s ∈ slots, s < cap
  slots_nodup : slots.Nodup
  tag : part d 0 8 = toLE 8 tag
  count : part d 36 4 = toLE 4 os.length
  order : ∀ i (h : i < os.length) (h' : i < slots.length),
    part d (40 + slots[i] * 24) 24 = toLE 16 os[i].id ++ toLE 8 os[i].qty
  info : ∀ i (h : i < os.length) (h' : i < slots.length),
    part d (40 + cap * 24 + (cap - 1) * 32 + slots[i] * Pod.size C) (Pod.size C) = Pod.toBytes os[i].cb

/-- A subtree in the bytes of a slab with room for `cap` orders: its handle, the (slot, order id) of its leaves from left
to right, the slots of its inner nodes. A handle below 2^31 is the slot of a leaf, one above is the complement of the slot
of an inner node, whose 32 bytes are a key, the length of the prefix of the key that all ids below it have, and the
handles of its two children: the ids with a 0 after the prefix are below the first, those with a 1 below the second. -/
inductive TreeBytes (d : Bytes) (cap : Nat) : Nat → List (Nat × Nat) → List Nat → Prop
  | leaf {slot id : Nat} : slot < 2 ^ 31 → slot < cap → id < 2 ^ 128 → part d (40 + slot * 24) 16 = toLE 16 id →
      TreeBytes d cap slot [(slot, id)] []
  | node {i key plen l r : Nat} {ls rs : List (Nat × Nat)} {li ri : List Nat} : i < 2 ^ 31 → i < cap - 1 → plen < 128 →
      part d (40 + cap * 24 + i * 32) 32 = toLE 16 key ++ toLE 8 plen ++ toLE 4 l ++ toLE 4 r →
      (∀ x ∈ ls, x.2 / 2 ^ (128 - plen) = key / 2 ^ (128 - plen) ∧ x.2.testBit (127 - plen) = false) →
      (∀ x ∈ rs, x.2 / 2 ^ (128 - plen) = key / 2 ^ (128 - plen) ∧ x.2.testBit (127 - plen) = true) →
      TreeBytes d cap l ls li → TreeBytes d cap r rs ri →
      TreeBytes d cap (2 ^ 32 - 1 - i) (ls ++ rs) (i :: (li ++ ri))

/-- A free list in the bytes: its length, first slot and the number of slots ever used in the header at `hdr`; the link
to the next free slot is in the four bytes at `off + slot * size`. The slots ever used are those in use and the free. -/
structure FreeBytes (d : Bytes) (hdr off size max : Nat) (used free : List Nat) : Prop where
  len : part d hdr 4 = toLE 4 free.length
  bump : part d (hdr + 8) 4 = toLE 4 (used.length + free.length)
  all : (used ++ free).Perm (List.range (used.length + free.length))
  fits : used.length + free.length ≤ max
  first : ∀ s, free.head? = some s → part d (hdr + 4) 4 = toLE 4 s
  next : ∀ i (h : i + 1 < free.length), part d (off + free[i] * size) 4 = toLE 4 free[i + 1]

/-- The tree of a slab and its two free lists. `ls`: slots and ids from the smallest id up. The slots in use, of leaves
and of inner nodes, are those of the tree. -/
structure SlabTree (d : Bytes) (cap : Nat) (ls : List (Nat × Nat)) : Prop where
  sorted : ls.Pairwise (fun a b => a.2 < b.2)
  tree : ∃ inner, (ls = [] ∧ inner = [] ∨ ∃ root, part d 32 4 = toLE 4 root ∧ TreeBytes d cap root ls inner) ∧
    (∃ free, FreeBytes d 8 (40 + 16) 24 cap (ls.map Prod.fst) free) ∧
    (∃ free, FreeBytes d 20 (40 + cap * 24 + 16) 32 (cap - 1) inner free)

end AOB
