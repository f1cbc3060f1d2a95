import Verif.Proofs.Wrapping
import Verif.Proofs.Load
import Verif.Proofs.SlabInv
import Verif.Spec.Release
import Mathlib.Tactic.Ring
/-
Reading accounts in the build without overflow checks.
-/
namespace AOB.Wrapping

theorem subU64_eq {a b : Nat} (h : b ≤ a) : subU64 a b = .ok (a - b) := by
  unfold subU64; rw [if_pos h]

theorem subU64_wrap {a b : Nat} (h : a < b) : subU64 a b = .ok (a + U64 - b) := by
  unfold subU64; rw [if_neg (by omega)]

theorem splitAt_eq {b : Bytes} {n : Nat} (h : n ≤ b.length) : splitAt b n = .ok (b.take n, b.drop n) := by
  unfold splitAt; rw [if_pos h]

theorem mulU64_eq {a b : Nat} (h : a * b < U64) : mulU64 a b = .ok (a * b) := by
  unfold mulU64; rw [Nat.mod_eq_of_lt h]

theorem addU64_eq {a b : Nat} (h : a + b < U64) : addU64 a b = .ok (a + b) := by
  unfold addU64; rw [Nat.mod_eq_of_lt h]

variable {C : Type} [Pod C]

theorem slab_eq {buf : Bytes} (t : AccountTag) (hl : 64 + Pod.size C ≤ buf.length) (hm : buf.length < U64) :
    slabFromBuffer C buf t = Slab.fromBuffer C buf t := by
  unfold slabFromBuffer Slab.fromBuffer
  have e1 : SlabHeader.LEN = 32 := rfl
  have e2 : LeafNode.LEN = 24 := rfl
  have e3 : InnerNode.LEN = 32 := rfl
  simp only [e1, e2, e3]
  rw [subU64_eq (by omega), ok_bind, subU64_eq (by omega), ok_bind, subU64_eq (by omega), ok_bind,
    subU_ok (by omega), ok_bind, subU_ok (by omega), ok_bind, subU_ok (by omega), ok_bind]
  have hcap := Nat.div_mul_le_self (buf.length - 32 - 8 - (24 + Pod.size C)) (24 + Pod.size C + 32)
  generalize (buf.length - 32 - 8 - (24 + Pod.size C)) / (24 + Pod.size C + 32) = cap at hcap ⊢
  have hcap' : cap * 24 + cap * Pod.size C + cap * 32 ≤ buf.length - 32 - 8 - (24 + Pod.size C) := by
    calc _ = cap * (24 + Pod.size C + 32) := by ring
      _ ≤ _ := hcap
  congr 1
  funext tag
  split
  · rfl
  · rw [splitAt_eq (by omega), ok_bind]
    dsimp only
    rw [splitAt_eq (by simp only [List.length_drop]; omega), ok_bind]
    dsimp only
    rw [addU64_eq (by omega), ok_bind, mulU64_eq (by omega), ok_bind,
      splitAt_eq (by simp only [List.length_drop]; omega), ok_bind]
    dsimp only
    rw [mulU64_eq (by omega), ok_bind, splitAt_eq (by simp only [List.length_drop]; omega), ok_bind]

theorem slab_short {buf : Bytes} {t : AccountTag} (hl : buf.length < 64 + Pod.size C) (hs : Pod.size C < 2 ^ 31) :
    Slab.fromBuffer C buf t = .error .panic ∧ ∀ s, slabFromBuffer C buf t ≠ .ok s := by
  have e1 : SlabHeader.LEN = 32 := rfl
  have e2 : LeafNode.LEN = 24 := rfl
  have e3 : InnerNode.LEN = 32 := rfl
  have eU : U64 = 2 ^ 64 := rfl
  constructor
  · unfold Slab.fromBuffer
    simp only [e1, e2, e3, subU]
    by_cases h1 : 32 ≤ buf.length
    · rw [if_pos h1, ok_bind]
      by_cases h2 : 8 ≤ buf.length - 32
      · rw [if_pos h2, ok_bind, if_neg (by omega), err_bind]
      · rw [if_neg h2, err_bind]
    · rw [if_neg h1, err_bind]
  · intro s h
    unfold slabFromBuffer at h
    simp only [e1, e2, e3] at h
    obtain ⟨a1, ha1, h⟩ := bind_ok h
    obtain ⟨a2, ha2, h⟩ := bind_ok h
    obtain ⟨a3, ha3, h⟩ := bind_ok h
    obtain ⟨tag, _, h⟩ := bind_ok h
    rw [ite_err_ok] at h
    obtain ⟨_, h⟩ := h
    obtain ⟨⟨_, r1⟩, hr1, h⟩ := bind_ok h
    obtain ⟨⟨_, r2⟩, hr2, h⟩ := bind_ok h
    obtain ⟨n1, hn1, h⟩ := bind_ok h
    obtain ⟨n2, hn2, h⟩ := bind_ok h
    obtain ⟨⟨_, r3⟩, hr3, h⟩ := bind_ok h
    clear h
    unfold splitAt at hr1 hr2 hr3
    split at hr1
    case isFalse => cases hr1
    split at hr2
    case isFalse => cases hr2
    split at hr3
    case isFalse => cases hr3
    rename_i g1 g2 g3
    cases hr1; cases hr2
    simp only [List.length_drop] at g2 g3
    rw [subU64_eq (by omega)] at ha1
    cases ha1
    rw [subU64_eq (by omega)] at ha2
    cases ha2
    rw [subU64_wrap (by omega)] at ha3
    cases ha3
    cases hn1; cases hn2
    have hpos := Pod.size_pos (C := C)
    have hlow : U64 - (24 + Pod.size C) ≤ buf.length - 32 - 8 + U64 - (24 + Pod.size C) := by omega
    have hup : buf.length - 32 - 8 + U64 - (24 + Pod.size C) < U64 := by omega
    generalize buf.length - 32 - 8 + U64 - (24 + Pod.size C) = a at g3 hlow hup
    have hd1 : a < (24 + Pod.size C + 32) * (a / (24 + Pod.size C + 32) + 1) := Nat.lt_mul_div_succ a (by omega)
    have hd2 : a / (24 + Pod.size C + 32) ≤ a / 57 := Nat.div_le_div_left (by omega) (by omega)
    generalize a / (24 + Pod.size C + 32) = cap at g3 hd1 hd2
    rw [Nat.mod_eq_of_lt (show cap + 1 < U64 by omega), Nat.mod_eq_of_lt (show (cap + 1) * 24 < U64 by omega)] at g3
    have h3 : (24 + Pod.size C + 32) * (cap + 1) ≤ (2 ^ 31 + 56) * (2 ^ 31 + 56) :=
      Nat.mul_le_mul (by omega) (by omega)
    omega

theorem slab_ok_iff {buf : Bytes} {t : AccountTag} {s : Slab C} (hs : Pod.size C < 2 ^ 31) (hm : buf.length < U64) :
    slabFromBuffer C buf t = .ok s ↔ Slab.fromBuffer C buf t = .ok s := by
  by_cases h : 64 + Pod.size C ≤ buf.length
  · rw [slab_eq t h hm]
  · obtain ⟨h1, h2⟩ := slab_short (C := C) (t := t) (show buf.length < 64 + Pod.size C by omega) hs
    rw [h1]
    exact ⟨fun h => absurd h (h2 s), fun h => (by cases h)⟩

theorem queue_eq {buf : Bytes} (t : AccountTag) (hl : 32 ≤ buf.length) (hm : buf.length < U64) :
    queueFromBuffer C buf t = EventQueue.fromBuffer C buf t := by
  unfold queueFromBuffer EventQueue.fromBuffer
  have e1 : EventQueueHeader.LEN = 24 := rfl
  have e2 : FillEvent.LEN = 40 := rfl
  simp only [e1, e2]
  rw [subU64_eq (by omega), ok_bind, subU64_eq (by omega), ok_bind, subU_ok (by omega), ok_bind,
    subU_ok (by omega), ok_bind]
  have hcap := Nat.div_mul_le_self (buf.length - 8 - 24) (40 + 2 * Pod.size C)
  generalize (buf.length - 8 - 24) / (40 + 2 * Pod.size C) = cap at hcap ⊢
  have hcap' : cap * 40 + cap * (2 * Pod.size C) ≤ buf.length - 8 - 24 := by
    calc _ = cap * (40 + 2 * Pod.size C) := by ring
      _ ≤ _ := hcap
  congr 1
  funext tag
  split
  · rfl
  · have hw : writeTag buf .eventQueue = .ok (toLE 8 AccountTag.eventQueue.toNat ++ buf.drop 8) := by
      unfold writeTag; rw [if_pos (by omega)]
    have hlen : (toLE 8 AccountTag.eventQueue.toNat ++ buf.drop 8).length = buf.length := by
      simp only [List.length_append, List.length_drop, toLE_length]; omega
    rw [hw, ok_bind, ok_bind]
    generalize toLE 8 AccountTag.eventQueue.toNat ++ buf.drop 8 = b at hlen
    rw [splitAt_eq (by simp only [List.length_drop]; omega), ok_bind]
    dsimp only
    rw [mulU64_eq (by omega), ok_bind, splitAt_eq (by simp only [List.length_drop]; omega), ok_bind]

theorem queue_short {buf : Bytes} {t : AccountTag} (hl : buf.length < 32) :
    EventQueue.fromBuffer C buf t = .error .panic ∧ ∀ r, queueFromBuffer C buf t ≠ .ok r := by
  have e1 : EventQueueHeader.LEN = 24 := rfl
  constructor
  · unfold EventQueue.fromBuffer
    simp only [e1, subU]
    by_cases h1 : 8 ≤ buf.length
    · rw [if_pos h1, ok_bind, if_neg (by omega), err_bind]
    · rw [if_neg h1, err_bind]
  · intro r h
    unfold queueFromBuffer at h
    simp only [e1] at h
    obtain ⟨a1, ha1, h⟩ := bind_ok h
    obtain ⟨a2, ha2, h⟩ := bind_ok h
    obtain ⟨tag, ht, h⟩ := bind_ok h
    rw [ite_err_ok] at h
    obtain ⟨_, h⟩ := h
    obtain ⟨b, hb, h⟩ := bind_ok h
    obtain ⟨⟨_, r1⟩, hr1, h⟩ := bind_ok h
    clear h
    unfold writeTag at hb
    split at hb
    case isFalse => cases hb
    cases hb
    unfold splitAt at hr1
    split at hr1
    case isFalse => cases hr1
    rename_i g1 g2
    simp only [List.length_append, List.length_drop, toLE_length] at g2
    omega

theorem queue_ok_iff {buf : Bytes} {t : AccountTag} {r} (hm : buf.length < U64) :
    queueFromBuffer C buf t = .ok r ↔ EventQueue.fromBuffer C buf t = .ok r := by
  by_cases h : 32 ≤ buf.length
  · rw [queue_eq t h hm]
  · obtain ⟨h1, h2⟩ := queue_short (C := C) (t := t) (show buf.length < 32 by omega)
    rw [h1]
    exact ⟨fun h => absurd h (h2 r), fun h => (by cases h)⟩

theorem slab_follows (buf : Bytes) (t : AccountTag) (hm : buf.length < U64) :
    Follows (Slab.fromBuffer C buf t) (slabFromBuffer C buf t) := by
  by_cases h : 64 + Pod.size C ≤ buf.length
  · exact Follows.of_eq (slab_eq t h hm)
  · have e1 : SlabHeader.LEN = 32 := rfl
    have e2 : LeafNode.LEN = 24 := rfl
    have hp : Slab.fromBuffer C buf t = .error .panic := by
      unfold Slab.fromBuffer
      simp only [e1, e2, subU]
      by_cases h1 : 32 ≤ buf.length
      · rw [if_pos h1, ok_bind]
        by_cases h2 : 8 ≤ buf.length - 32
        · rw [if_pos h2, ok_bind, if_neg (by omega), err_bind]
        · rw [if_neg h2, err_bind]
      · rw [if_neg h1, err_bind]
    rw [hp]; exact Follows.panic _

theorem queue_follows (buf : Bytes) (t : AccountTag) (hm : buf.length < U64) :
    Follows (EventQueue.fromBuffer C buf t) (queueFromBuffer C buf t) := by
  by_cases h : 32 ≤ buf.length
  · exact Follows.of_eq (queue_eq t h hm)
  · rw [(queue_short (C := C) (t := t) (show buf.length < 32 by omega)).1]; exact Follows.panic _

variable {env : Env} {w : World}

theorem newSafe_follows (hw : Sized w) (b a : Pubkey) :
    Follows (OrderBook.newSafe C (w b).data (w a).data) (newSafe C (w b).data (w a).data) :=
  Follows.bind (slab_follows _ _ (hw b)) (fun _ => Follows.bind (slab_follows _ _ (hw a)) (fun _ => Follows.refl _))

theorem createMarket_follows (hw : Sized w) (a : BookAccounts) (p : CreateParams) :
    Follows (Processor.createMarket env C w a p) (createMarket C env w a p) := by
  unfold Processor.createMarket createMarket
  iterate 7 refine Follows.bind (Follows.refl _) (fun _ => ?_)
  split
  · exact Follows.refl _
  · generalize EventQueue.checkBufferSize C (w a.eventQueue).data = r
    cases r with
    | error _ => exact Follows.refl _
    | ok _ =>
      refine Follows.bind (Follows.refl _) (fun _ => ?_)
      refine Follows.bind (Follows.refl _) (fun _ => ?_)
      refine Follows.bind (Follows.refl _) (fun _ => ?_)
      refine Follows.bind (Follows.refl _) (fun _ => ?_)
      exact Follows.bind (queue_follows _ _ (hw _)) (fun _ => Follows.refl _)

theorem newOrder_follows [CallbackInfo C] (hw : Sized w) (a : BookAccounts) (p : NewOrderParams C) :
    Follows (Processor.newOrder env w a p) (newOrder env w a p) := by
  unfold Processor.newOrder newOrder
  refine Follows.bind (Follows.refl _) (fun _ => ?_)
  refine Follows.bind (Follows.refl _) (fun _ => ?_)
  refine Follows.bind (Follows.refl _) (fun _ => ?_)
  refine Follows.bind (Follows.refl _) (fun _ => ?_)
  refine Follows.bind (Follows.refl _) (fun _ => ?_)
  refine Follows.bind (Follows.refl _) (fun _ => ?_)
  refine Follows.bind (Follows.refl _) (fun _ => ?_)
  refine Follows.bind (newSafe_follows hw _ _) (fun _ => ?_)
  refine Follows.bind (Follows.refl _) (fun _ => ?_)
  refine Follows.bind (queue_follows _ _ (hw _)) (fun _ => ?_)
  exact Follows.bind (newOrderIn_agree _ _ _ _) (fun _ => Follows.refl _)

theorem cancelOrder_follows (hw : Sized w) (a : BookAccounts) (id : Nat) :
    Follows (Processor.cancelOrder env C w a id) (cancelOrder C env w a id) := by
  unfold Processor.cancelOrder cancelOrder
  refine Follows.bind (Follows.refl _) (fun _ => ?_)
  refine Follows.bind (Follows.refl _) (fun _ => ?_)
  refine Follows.bind (Follows.refl _) (fun _ => ?_)
  refine Follows.bind (Follows.refl _) (fun _ => ?_)
  refine Follows.bind (Follows.refl _) (fun _ => ?_)
  refine Follows.bind (Follows.refl _) (fun _ => ?_)
  refine Follows.bind (newSafe_follows hw _ _) (fun _ => ?_)
  exact Follows.bind (cancelIn_agree _ _) (fun _ => Follows.refl _)

theorem massCancelOrders_follows (hw : Sized w) (a : BookAccounts) (ids : List Nat) :
    Follows (Processor.massCancelOrders env C w a ids) (massCancelOrders C env w a ids) := by
  unfold Processor.massCancelOrders massCancelOrders
  refine Follows.bind (Follows.refl _) (fun _ => ?_)
  refine Follows.bind (Follows.refl _) (fun _ => ?_)
  refine Follows.bind (Follows.refl _) (fun _ => ?_)
  refine Follows.bind (Follows.refl _) (fun _ => ?_)
  refine Follows.bind (Follows.refl _) (fun _ => ?_)
  refine Follows.bind (Follows.refl _) (fun _ => ?_)
  refine Follows.bind (newSafe_follows hw _ _) (fun _ => ?_)
  exact Follows.bind (massCancelLoop_agree _ _ _ _) (fun _ => Follows.refl _)

theorem consumeEvents_follows (hw : Sized w) (m q : Pubkey) (n : Nat) :
    Follows (Processor.consumeEvents env C w m q n) (consumeEvents C env w m q n) := by
  unfold Processor.consumeEvents consumeEvents
  iterate 7 refine Follows.bind (Follows.refl _) (fun _ => ?_)
  refine Follows.bind (queue_follows _ _ (hw _)) (fun _ => ?_)
  exact Follows.bind (popN_agree _ _) (fun _ => Follows.refl _)

theorem closeMarket_follows (hw : Sized w) (a : BookAccounts) (target : Pubkey) :
    Follows (Processor.closeMarket env C w a target) (closeMarket C env w a target) := by
  unfold Processor.closeMarket closeMarket
  refine Follows.bind (Follows.refl _) (fun _ => ?_)
  refine Follows.bind (Follows.refl _) (fun _ => ?_)
  refine Follows.bind (Follows.refl _) (fun _ => ?_)
  refine Follows.bind (Follows.refl _) (fun _ => ?_)
  refine Follows.bind (Follows.refl _) (fun _ => ?_)
  refine Follows.bind (Follows.refl _) (fun _ => ?_)
  have h := newSafe_follows (C := C) hw a.bids a.asks
  cases hr : OrderBook.newSafe C (w a.bids).data (w a.asks).data with
  | error e => exact Follows.panic _
  | ok book =>
    rw [hr] at h
    rw [h (by intro h; cases h)]
    dsimp only
    split
    · exact Follows.refl _
    · refine Follows.bind (Follows.refl _) (fun _ => ?_)
      refine Follows.bind (queue_follows _ _ (hw _)) (fun r => ?_)
      obtain ⟨queue, qd⟩ := r
      dsimp only
      split
      · exact Follows.refl _
      · iterate 9 refine Follows.bind (Follows.refl _) (fun _ => ?_)
        iterate 4 refine Follows.bind (addU64_agree _ _) (fun _ => ?_)
        exact Follows.refl _

variable [CallbackInfo C] [Borsh C]

theorem processInstruction_follows (hw : Sized w) (accounts : List Pubkey) (data : Bytes) :
    Follows (Processor.processInstruction env C w accounts data) (processInstruction C env w accounts data) := by
  unfold Processor.processInstruction processInstruction
  refine Follows.bind (Follows.refl _) (fun t => ?_)
  cases t with
  | createMarket =>
    refine Follows.bind (Follows.refl _) (fun a => Follows.bind (Follows.refl _) (fun p => ?_))
    exact Follows.bind (createMarket_follows hw _ _) (fun _ => Follows.refl _)
  | newOrder =>
    refine Follows.bind (Follows.refl _) (fun a => Follows.bind (Follows.refl _) (fun p => ?_))
    exact Follows.bind (newOrder_follows hw _ _) (fun _ => Follows.refl _)
  | consumeEvents =>
    refine Follows.bind (Follows.refl _) (fun a => Follows.bind (Follows.refl _) (fun p => ?_))
    exact Follows.bind (consumeEvents_follows hw _ _ _) (fun _ => Follows.refl _)
  | cancelOrder =>
    refine Follows.bind (Follows.refl _) (fun a => Follows.bind (Follows.refl _) (fun p => ?_))
    exact Follows.bind (cancelOrder_follows hw _ _) (fun _ => Follows.refl _)
  | closeMarket =>
    refine Follows.bind (Follows.refl _) (fun a => ?_)
    exact Follows.bind (closeMarket_follows hw _ _) (fun _ => Follows.refl _)
  | massCancelOrders =>
    refine Follows.bind (Follows.refl _) (fun a => Follows.bind (Follows.refl _) (fun p => ?_))
    exact Follows.bind (massCancelOrders_follows hw _ _) (fun _ => Follows.refl _)

theorem entrypoint_follows (hw : Sized w) (accounts : List Pubkey) (data : Bytes) :
    Follows (AOB.entrypoint env C w accounts data) (entrypoint C env w accounts data) := by
  unfold AOB.entrypoint entrypoint
  cases accounts.getLast? with
  | none => exact Follows.refl _
  | some r => exact Follows.bind (processInstruction_follows hw _ _) (fun _ => Follows.refl _)

end AOB.Wrapping
