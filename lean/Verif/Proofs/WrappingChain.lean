import Verif.Proofs.WrappingMarket
import Verif.Proofs.QueueHeads
import Verif.Spec.Release
/-
On the worlds that can arise, a call succeeds in the build without overflow checks exactly if it does in the other one.
-/
namespace AOB

/-- What the second computation returns, the first one returns. -/
def Same {α : Type} (r r' : Res α) : Prop := ∀ a, r' = .ok a → r = .ok a

namespace Same

theorem refl {α : Type} (r : Res α) : Same r r := fun _ h => h

theorem of_eq {α : Type} {r r' : Res α} (h : r' = r) : Same r r' := fun _ e => h ▸ e

theorem bind {α β : Type} {r r' : Res α} {f g : α → Res β} (h : Same r r') (hf : ∀ a, r = .ok a → Same (f a) (g a)) :
    Same (r >>= f) (r' >>= g) := by
  intro b e
  obtain ⟨a, ha, e⟩ := bind_ok e
  have h1 := h a ha
  rw [h1]
  exact hf a h1 b e

theorem iff {α : Type} {r r' : Res α} (h : Same r r') (h' : Follows r r') (a : α) : r' = .ok a ↔ r = .ok a :=
  ⟨h a, fun e => (h' (by rw [e]; intro g; cases g)).trans e⟩

end Same

namespace Wrapping
variable {C : Type} [Pod C] {env : Env} {R : Pubkey → Prop} {w : World}

theorem newSafe_same (hs : Pod.size C < 2 ^ 31) (hw : Sized w) (b a : Pubkey) :
    Same (OrderBook.newSafe C (w b).data (w a).data) (newSafe C (w b).data (w a).data) :=
  Same.bind (fun _ h => (slab_ok_iff hs (hw b)).1 h) fun _ _ =>
    Same.bind (fun _ h => (slab_ok_iff hs (hw a)).1 h) fun _ _ => Same.refl _

theorem queue_same (hw : Sized w) (k : Pubkey) (t : AccountTag) :
    Same (EventQueue.fromBuffer C (w k).data t) (queueFromBuffer C (w k).data t) :=
  fun _ h => (queue_ok_iff (hw k)).1 h

theorem createMarket_same (hw : Sized w) (a : BookAccounts) (p : CreateParams) :
    Same (Processor.createMarket env C w a p) (createMarket C env w a p) := by
  unfold Processor.createMarket createMarket
  iterate 7 refine Same.bind (Same.refl _) (fun _ _ => ?_)
  split
  · exact Same.refl _
  · generalize EventQueue.checkBufferSize C (w a.eventQueue).data = r
    cases r with
    | error _ => exact Same.refl _
    | ok _ =>
      iterate 4 refine Same.bind (Same.refl _) (fun _ _ => ?_)
      exact Same.bind (queue_same hw _ _) (fun _ _ => Same.refl _)

variable [CallbackInfo C]

theorem newOrder_same (hi : ChainInv env C R w) {n : Nat} (hq : QueuesOk env C R n w) (hn : n + 1 < 2 ^ 64)
    (hs : Pod.size C < 2 ^ 31) (hw : Sized w) {a : BookAccounts} (hR : ¬ R a.market) (hRq : ¬ R a.eventQueue)
    {p : NewOrderParams C} (hp : p.Fits) : Same (Processor.newOrder env w a p) (newOrder env w a p) := by
  unfold Processor.newOrder newOrder
  refine Same.bind (Same.refl _) (fun _ h1 => ?_)
  refine Same.bind (Same.refl _) (fun _ _ => ?_)
  refine Same.bind (Same.refl _) (fun mm hm => ?_)
  obtain ⟨ms, md⟩ := mm
  refine Same.bind (Same.refl _) (fun _ hk => ?_)
  refine Same.bind (Same.refl _) (fun _ ht => ?_)
  refine Same.bind (Same.refl _) (fun _ _ => ?_)
  refine Same.bind (Same.refl _) (fun _ _ => ?_)
  refine Same.bind (newSafe_same hs hw _ _) (fun b hb => ?_)
  refine Same.bind (Same.refl _) (fun _ _ => ?_)
  refine Same.bind (queue_same hw _ _) (fun qq hqq => ?_)
  obtain ⟨q, qd⟩ := qq
  refine Same.bind (Same.of_eq ?_) (fun _ _ => Same.refl _)
  obtain ⟨o1, o2, o3, o4⟩ := performChecks_ok_iff.1 h1
  obtain ⟨hl, hg, rfl, rfl⟩ := marketRead_ok hm
  obtain ⟨k1, k2, k3⟩ := checkAccounts_ok_iff.1 hk
  obtain ⟨b1, b2, b3, b4⟩ := newSafe_ok_iff.1 hb
  obtain ⟨q1, q2, rfl⟩ := queueRead_ok hqq
  have hseq := (hq _ hRq o2 (byte0_of_field (by have := q1.long; omega) q2) q q1).2
  rw [k2] at b1 b2
  rw [k3] at b3 b4
  rw [k1] at q1 q2
  have hload : Loaded w a.market (C := C) ⟨_, _, b, q⟩ := ⟨hl, hg, rfl, rfl, b1, b2, b3, b4, q1, q2⟩
  obtain ⟨r, hr⟩ := (hi.reach _ hR ⟨o1, hl, hg⟩ _ hload).known
  have e := hr.rep.seq
  simp only at e
  have hpo : (Instr.newOrder p).Ok := Instr.Fits.ok (i := .newOrder p) hp
  unfold Processor.checkTick at ht
  obtain ⟨z, hz, ht⟩ := bind_ok ht
  obtain ⟨hz0, ht⟩ := ite_err_ok.1 ht
  obtain ⟨ht, _⟩ := ite_err_ok.1 ht
  simp only [ne_eq, not_not] at hz0
  subst hz0
  exact newOrderIn_eq hr (by omega) hpo hz (by simpa using ht)

theorem sound_of_loaded (hi : ChainInv env C R w) {k : Pubkey} (hR : ¬ R k) (ho : (w k).owner = env.programId)
    {b : OrderBook C} (hb : LoadedBook w k b) : Sound b := by
  obtain ⟨m, hm, rfl, _⟩ := hi.storedBook (b' := b) hR ho hb
  obtain ⟨a, ha⟩ := (hi.reach _ hR ⟨ho, hm.len, hm.tag⟩ m hm).known
  exact Known.sound ha

theorem cancelOrder_same (hi : ChainInv env C R w) (hs : Pod.size C < 2 ^ 31) (hw : Sized w) {a : BookAccounts}
    (hR : ¬ R a.market) (id : Nat) : Same (Processor.cancelOrder env C w a id) (cancelOrder C env w a id) := by
  unfold Processor.cancelOrder cancelOrder
  refine Same.bind (Same.refl _) (fun _ h1 => ?_)
  refine Same.bind (Same.refl _) (fun _ _ => ?_)
  refine Same.bind (Same.refl _) (fun mm hm => ?_)
  obtain ⟨ms, md⟩ := mm
  refine Same.bind (Same.refl _) (fun _ hk => ?_)
  refine Same.bind (Same.refl _) (fun _ _ => ?_)
  refine Same.bind (Same.refl _) (fun _ _ => ?_)
  refine Same.bind (newSafe_same hs hw _ _) (fun b hb => ?_)
  refine Same.bind (Same.of_eq ?_) (fun _ _ => Same.refl _)
  obtain ⟨o1, o2, o3, o4⟩ := performChecks_ok_iff.1 h1
  obtain ⟨hl, hg, rfl, rfl⟩ := marketRead_ok hm
  obtain ⟨k1, k2, k3⟩ := checkAccounts_ok_iff.1 hk
  obtain ⟨b1, b2, b3, b4⟩ := newSafe_ok_iff.1 hb
  rw [k2] at b1 b2
  rw [k3] at b3 b4
  exact cancelIn_eq (sound_of_loaded hi hR o1 ⟨hl, hg, b1, b2, b3, b4⟩) id

theorem massCancelOrders_same (hi : ChainInv env C R w) (hs : Pod.size C < 2 ^ 31) (hw : Sized w) {a : BookAccounts}
    (hR : ¬ R a.market) (ids : List Nat) :
    Same (Processor.massCancelOrders env C w a ids) (massCancelOrders C env w a ids) := by
  unfold Processor.massCancelOrders massCancelOrders
  refine Same.bind (Same.refl _) (fun _ h1 => ?_)
  refine Same.bind (Same.refl _) (fun _ _ => ?_)
  refine Same.bind (Same.refl _) (fun mm hm => ?_)
  obtain ⟨ms, md⟩ := mm
  refine Same.bind (Same.refl _) (fun _ hk => ?_)
  refine Same.bind (Same.refl _) (fun _ _ => ?_)
  refine Same.bind (Same.refl _) (fun _ _ => ?_)
  refine Same.bind (newSafe_same hs hw _ _) (fun b hb => ?_)
  refine Same.bind (Same.of_eq ?_) (fun _ _ => Same.refl _)
  obtain ⟨o1, o2, o3, o4⟩ := performChecks_ok_iff.1 h1
  obtain ⟨hl, hg, rfl, rfl⟩ := marketRead_ok hm
  obtain ⟨k1, k2, k3⟩ := checkAccounts_ok_iff.1 hk
  obtain ⟨b1, b2, b3, b4⟩ := newSafe_ok_iff.1 hb
  rw [k2] at b1 b2
  rw [k3] at b3 b4
  exact massCancelLoop_eq ids (sound_of_loaded hi hR o1 ⟨hl, hg, b1, b2, b3, b4⟩) 0 0

omit [CallbackInfo C] in
theorem consumeEvents_same {n : Nat} (hq : QueuesOk env C R n w) (ht : Tidy env C R w) (hw : Sized w)
    {mk qk : Pubkey} (hR : ¬ R qk) (N : Nat) :
    Same (Processor.consumeEvents env C w mk qk N) (consumeEvents C env w mk qk N) := by
  unfold Processor.consumeEvents consumeEvents
  refine Same.bind (Same.refl _) (fun _ _ => ?_)
  refine Same.bind (Same.refl _) (fun _ h2 => ?_)
  iterate 5 refine Same.bind (Same.refl _) (fun _ _ => ?_)
  refine Same.bind (queue_same hw _ _) (fun qq hqq => ?_)
  obtain ⟨q, qd⟩ := qq
  refine Same.bind (Same.of_eq ?_) (fun _ _ => Same.refl _)
  have o2 := checkAccountOwner_ok_iff.1 h2
  obtain ⟨q1, q2, rfl⟩ := queueRead_ok hqq
  obtain ⟨⟨g1, g2⟩, _⟩ := hq _ hR o2 (byte0_of_field (by have := q1.long; omega) q2) q q1
  have hlen : q.events.length ≤ (w qk).data.length := by
    rw [q1.lengths.1]
    unfold queueCap
    exact Nat.le_trans (Nat.div_le_self _ _) (Nat.sub_le _ _)
  have hsm := (ht _ hR o2).small
  refine popN_eq N g2 g1 ?_
  unfold MAX_ACCOUNT_LEN at hsm
  have : U64 = 2 ^ 64 := rfl
  omega

omit [CallbackInfo C] in
theorem closeMarket_same (hs : Pod.size C < 2 ^ 31) (hw : Sized w) (hf : Funded w) (a : BookAccounts)
    (target : Pubkey) : Same (Processor.closeMarket env C w a target) (closeMarket C env w a target) := by
  unfold Processor.closeMarket closeMarket
  iterate 6 refine Same.bind (Same.refl _) (fun _ _ => ?_)
  have h := newSafe_same (C := C) hs hw a.bids a.asks
  cases hr : newSafe C (w a.bids).data (w a.asks).data with
  | error e => intro _ h; cases h
  | ok book =>
    rw [h book hr]
    dsimp only
    split
    · exact Same.refl _
    · refine Same.bind (Same.refl _) (fun _ _ => ?_)
      refine Same.bind (queue_same hw _ _) (fun r _ => ?_)
      obtain ⟨queue, qd⟩ := r
      dsimp only
      split
      · exact Same.refl _
      · iterate 4 refine Same.bind (Same.refl _) (fun _ _ => ?_)
        refine Same.bind (Same.refl _) (fun _ l1 => ?_)
        refine Same.bind (Same.refl _) (fun _ l2 => ?_)
        refine Same.bind (Same.refl _) (fun _ l3 => ?_)
        refine Same.bind (Same.refl _) (fun _ l4 => ?_)
        refine Same.bind (Same.refl _) (fun _ l5 => ?_)
        obtain ⟨_, rfl⟩ := borrow_ok_iff.1 l1
        obtain ⟨n2, rfl⟩ := borrow_ok_iff.1 l2
        obtain ⟨n3, rfl⟩ := borrow_ok_iff.1 l3
        obtain ⟨n4, rfl⟩ := borrow_ok_iff.1 l4
        obtain ⟨n5, rfl⟩ := borrow_ok_iff.1 l5
        have hsum := hf [target, a.eventQueue, a.asks, a.bids, a.market] (by
          simp only [List.nodup_cons]
          exact ⟨n5, n4, n3, n2, by simp⟩) (by simp)
        simp only [List.map_cons, List.map_nil, List.sum_cons, List.sum_nil] at hsum
        have eU : U64 = 2 ^ 64 := rfl
        rw [← eU] at hsum
        have e1 : ∀ x y : Nat, x + y < U64 → Same (AOB.addU64 x y) (addU64 x y) := by
          intro x y hxy
          rw [addU64_eq hxy, addU64_ok_iff.2 ⟨hxy, rfl⟩]
          exact Same.refl _
        refine Same.bind (e1 _ _ (by omega)) (fun s g => ?_)
        obtain ⟨_, rfl⟩ := addU64_ok_iff.1 g
        refine Same.bind (e1 _ _ (by omega)) (fun s g => ?_)
        obtain ⟨_, rfl⟩ := addU64_ok_iff.1 g
        refine Same.bind (e1 _ _ (by omega)) (fun s g => ?_)
        obtain ⟨_, rfl⟩ := addU64_ok_iff.1 g
        exact Same.bind (e1 _ _ (by omega)) (fun s g => Same.refl _)

variable [Borsh C]

theorem processInstruction_same (hi : ChainInv env C R w) (ht : Tidy env C R w) {n : Nat}
    (hq : QueuesOk env C R n w) (hn : n + 1 < 2 ^ 64) (hs : Pod.size C < 2 ^ 31) (hw : Sized w) (hf : Funded w)
    {accounts : List Pubkey} (hR : ∀ k ∈ accounts, ¬ R k) (data : Bytes) :
    Same (Processor.processInstruction env C w accounts data) (processInstruction C env w accounts data) := by
  unfold Processor.processInstruction processInstruction
  refine Same.bind (Same.refl _) (fun t _ => ?_)
  cases t with
  | createMarket =>
    refine Same.bind (Same.refl _) (fun a _ => Same.bind (Same.refl _) (fun p _ => ?_))
    exact Same.bind (createMarket_same hw _ _) (fun _ _ => Same.refl _)
  | newOrder =>
    refine Same.bind (Same.refl _) (fun a ha => Same.bind (Same.refl _) (fun p hp => ?_))
    obtain ⟨m1, m2, m3, m4⟩ := parse_mem ha
    exact Same.bind (newOrder_same hi hq hn hs hw (hR _ m1) (hR _ m2) ((tryFromSlice_ok_iff codec_newOrder).1 hp).2)
      (fun _ _ => Same.refl _)
  | consumeEvents =>
    refine Same.bind (Same.refl _) (fun a ha => Same.bind (Same.refl _) (fun p _ => ?_))
    exact Same.bind (consumeEvents_same hq ht hw (hR _ (parseConsume_mem ha).2) _) (fun _ _ => Same.refl _)
  | cancelOrder =>
    refine Same.bind (Same.refl _) (fun a ha => Same.bind (Same.refl _) (fun p _ => ?_))
    exact Same.bind (cancelOrder_same hi hs hw (hR _ (parse_mem ha).1) _) (fun _ _ => Same.refl _)
  | closeMarket =>
    refine Same.bind (Same.refl _) (fun a _ => ?_)
    exact Same.bind (closeMarket_same hs hw hf _ _) (fun _ _ => Same.refl _)
  | massCancelOrders =>
    refine Same.bind (Same.refl _) (fun a ha => Same.bind (Same.refl _) (fun p _ => ?_))
    exact Same.bind (massCancelOrders_same hi hs hw (hR _ (parse_mem ha).1) _) (fun _ _ => Same.refl _)

theorem entrypoint_same (hi : ChainInv env C R w) (ht : Tidy env C R w) {n : Nat}
    (hq : QueuesOk env C R n w) (hn : n + 1 < 2 ^ 64) (hs : Pod.size C < 2 ^ 31) (hw : Sized w) (hf : Funded w)
    {accounts : List Pubkey} (hR : ∀ k ∈ accounts.dropLast, ¬ R k) (data : Bytes) :
    Same (AOB.entrypoint env C w accounts data) (entrypoint C env w accounts data) := by
  unfold AOB.entrypoint entrypoint
  cases accounts.getLast? with
  | none => exact Same.refl _
  | some r => exact Same.bind (processInstruction_same hi ht hq hn hs hw hf hR _) (fun _ _ => Same.refl _)

end Wrapping
end AOB
