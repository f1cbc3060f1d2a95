import Verif.Props.Slots
import Verif.Props.RawBytes
/-
C110 in the raw bytes of the accounts on the chain.
-/
namespace AOB
namespace RawBytes
variable {C : Type} [CallbackInfo C] [Pod C] [Borsh C] {env : Env} {R : Pubkey → Prop} {w w' : World} {k : Pubkey} {m : Market C}

/-- The bytes of the slab account of one side of the market at `k`. -/
def sideBytes (w : World) (k : Pubkey) : Side → Bytes
  | .bid => (w (stateAt w k).bids).data
  | .ask => (w (stateAt w k).asks).data

omit [CallbackInfo C] [Borsh C] in
theorem side_parts (hm : loadMarket C w k = .ok m) (side : Side) : SlabParts C (sideBytes w k side) (m.book.getTree side) := by
  have hL := loadMarket_ok_iff.1 hm
  cases side
  · exact hL.bids
  · exact hL.asks

omit [CallbackInfo C] [Borsh C] in
/-- The bytes of one slot. -/
theorem slot_bytes {d : Bytes} {s : Slab C} (h : SlabParts C d s) {cap : Nat} (hcap : s.leafNodes.length = cap) {i id q : Nat} {c : C}
    (h1 : s.leafNodes[i]? = some ⟨id, q⟩) (h2 : s.callbackInfos[i]? = some c) :
    part d (40 + i * 24) 24 = toLE 16 id ++ toLE 8 q ∧
      part d (40 + cap * 24 + (cap - 1) * 32 + i * Pod.size C) (Pod.size C) = Pod.toBytes c := by
  refine ⟨part_leaves h h1, ?_⟩
  rw [← hcap, h.lengths.1, Nat.add_sub_cancel]
  exact part_infos h.infos h2

/-- C110, in the raw bytes: whatever happens on the chain, until the market is closed, an order that still rests has its
id and what is left of it in the same 24 bytes of the slab account as before, and its callback information in the same
place of the same account. -/
theorem C110_bytes (hw : OnChain env C R w) (hR : ¬ R k) (hM : IsMarket env w k) (hm : loadMarket C w k = .ok m)
    (h : ChainRun env C R w w') :
    (∃ w1, ChainRun env C R w w1 ∧ ChainRun env C R w1 w' ∧ (w1 k).data[0]? = some 132) ∨
    ∃ m', IsMarket env w' k ∧ loadMarket C w' k = .ok m' ∧ ∀ (side : Side) (o o' : Order C), o ∈ resting m side →
      o' ∈ resting m' side → o'.id = o.id → m'.queue.header.seqNum ≤ 2 ^ 63 →
      ∃ slot cap, slot < cap ∧
        part (sideBytes w k side) (40 + slot * 24) 24 = toLE 16 o.id ++ toLE 8 o.qty ∧
        part (sideBytes w' k side) (40 + slot * 24) 24 = toLE 16 o.id ++ toLE 8 o'.qty ∧
        part (sideBytes w k side) (40 + cap * 24 + (cap - 1) * 32 + slot * Pod.size C) (Pod.size C) = Pod.toBytes o.cb ∧
        part (sideBytes w' k side) (40 + cap * 24 + (cap - 1) * 32 + slot * Pod.size C) (Pod.size C) = Pod.toBytes o.cb := by
  obtain ⟨is, hf, ⟨hM', hm'⟩ | ⟨w1, w2, a1, a2, a3, _, _, _, _, a4⟩⟩ := Chain.C54_run hw hR hM hm h
  · refine .inr ⟨_, hM', hm', fun side o o' ho ho' hid hs => ?_⟩
    obtain ⟨c, is0, hr⟩ := Chain.C54_reachable hw hR hM hm
    have hj : ∀ i ∈ is, i.Ok := fun i hi => (hf i hi).ok
    obtain ⟨i, _, _, f1, f2, f3, f4⟩ := C110_keeps_its_slot hr hj hs ho ho' hid
    have hc : ∀ {is0 : List (Instr C)} {m : Market C}, ReachBy c is0 m → (m.book.getTree side).leafNodes.length = c.cap side := by
      intro is0 m hr
      rw [hr.known.1.rep.cap side, hr.known.2.2.cap side]
      cases side <;> rfl
    obtain ⟨b1, b2⟩ := slot_bytes (side_parts hm side) (hc hr) f1 f2
    obtain ⟨b3, b4⟩ := slot_bytes (side_parts hm' side) (hc (hr.append hj)) f3 f4
    exact ⟨i, c.cap side, by rw [← hc hr]; exact lt_of_getElem? f1, b1, b3, b2, b4⟩
  · exact .inl ⟨w2, .step a1 a2, a3, a4⟩

/-! ### The ask of the demo market stays in slot 0 while a second one comes -/
section
open DemoChain (key)
open Client (moved onChain_moved)
open Accounts (demo_isMarket)

example := fun m hm => C110_bytes (m := m) (w' := grown) onChain_moved (k := key 1)
  (by show key 1 ≠ key 6; decide +kernel) (demo_isMarket (by decide +kernel)) hm
  (.step .refl (.call (accounts := DemoChain.accounts) (by show ∀ k ∈ DemoChain.accounts, k ≠ key 6; decide +kernel)
    (DemoChain.after_step (d := DemoChain.newOrder .ask 7 12 3) (by decide +kernel)).choose_spec))

example : part (sideBytes moved (key 1) .ask) 40 16 = toLE 16 DemoChain.askId ∧
    part (sideBytes grown (key 1) .ask) 40 16 = toLE 16 DemoChain.askId ∧
    sideBytes moved (key 1) .ask ≠ sideBytes grown (key 1) .ask := by decide +kernel
end

end RawBytes
end AOB
