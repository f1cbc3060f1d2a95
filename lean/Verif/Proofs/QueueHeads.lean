import Verif.Proofs.Tidy
/-
The header of every event queue on the chain is in range, also of a queue whose market has slabs that cannot be read;
its sequence counter is at most the number of steps.
-/
namespace AOB
variable {C : Type} [Pod C]

/-- The head and the length of the queue in an account tagged `EventQueue` are within its events, its counter is at most
`n`. -/
def QueueOk (C : Type) [Pod C] (n : Nat) (d : Bytes) : Prop :=
  d[0]? = some 129 → ∀ q : EventQueue C, QueueParts C d q →
    (q.header.head ≤ q.events.length ∧ q.header.count ≤ q.events.length) ∧ q.header.seqNum ≤ n

theorem QueueOk.mono {n n' : Nat} {d : Bytes} (h : QueueOk C n d) (hn : n ≤ n') : QueueOk C n' d :=
  fun e q hq => ⟨(h e q hq).1, Nat.le_trans (h e q hq).2 hn⟩

theorem QueueOk.of_byte0 {n : Nat} {d : Bytes} {x : UInt8} (h : d[0]? = some x) (hx : x ≠ 129) : QueueOk C n d :=
  fun e => absurd (Option.some.inj (h.symm.trans e)) hx

theorem QueueOk.fresh {n : Nat} {d : Bytes} (h : Fresh d) : QueueOk C n d := fun e => absurd (h.byte0 e) (by decide)

theorem QueueOk.created {n : Nat} {d : Bytes} (h : Fresh d) (hl : 32 ≤ d.length) :
    QueueOk C n (toLE 8 AccountTag.eventQueue.toNat ++ d.drop 8) := by
  intro _ q hq
  have e := hq.header
  have e2 : ((toLE 8 AccountTag.eventQueue.toNat ++ d.drop 8).drop 8).take 24 = List.replicate 24 0 := by
    rw [slice_skip _ _ _ (by rw [toLE_length]), toLE_length, Nat.sub_self, List.drop_zero, h.1, List.drop_replicate,
      List.take_replicate, Nat.min_eq_left (by omega)]
  rw [e2] at e
  rw [e]
  exact ⟨⟨Nat.zero_le _, Nat.zero_le _⟩, Nat.zero_le _⟩

def QueuesOk (env : Env) (C : Type) [Pod C] (R : Pubkey → Prop) (n : Nat) (w : World) : Prop :=
  ∀ k, ¬ R k → (w k).owner = env.programId → QueueOk C n (w k).data

variable [CallbackInfo C]

theorem Loaded.queueOk {w : World} {k : Pubkey} {m m' : Market C} (h : Loaded w k m) (hr : Reachable m)
    {i : Instr C} (hi : i.Fits) {r : Option OrderSummary} (he : m.exec i = .ok (r, m')) {n : Nat} {x : Pubkey}
    (hx : QueueOk C n (w x).data) : QueueOk C (n + 1) (store w k m' x).data := by
  have hk := exec_kept h.fits.1 h.fits.2 hi he
  obtain ⟨e1, e2, e3, e4⟩ := h.store_data m'
  by_cases h1 : x = (stateAt w k).eventQueue
  · subst h1
    intro _ q hq
    have hs := (h.stored hk).queue
    rw [stateAt_store h] at hs
    obtain rfl := hq.inj hs
    obtain ⟨a, ha⟩ := hr.known
    obtain ⟨a', hx', ha'⟩ := ha.exec_ok hi.ok he
    have hv := ha'.rep.queue.1
    have h5 := (hx (byte0_of_field (by have := h.queue.long; omega) h.queueTag) m.queue h.queue).2
    have h6 := (exec_params hx').2.2
    refine ⟨⟨Nat.le_of_lt hv.head, hv.count⟩, ?_⟩
    rw [ha'.rep.seq]
    rw [ha.rep.seq] at h5
    omega
  by_cases h2 : x = (stateAt w k).bids
  · subst h2
    exact QueueOk.of_byte0 ((h.store_byte0 m' _).trans h.bidsTag) (by decide)
  by_cases h3 : x = (stateAt w k).asks
  · subst h3
    exact QueueOk.of_byte0 ((h.store_byte0 m' _).trans h.asksTag) (by decide)
  · rw [store_other w k m' h1 h2 h3]; exact hx.mono (Nat.le_succ _)

theorem QueuesOk.ran {env : Env} {R : Pubkey → Prop} {n : Nat} {w w' : World} (h : QueuesOk env C R n w) (hi : ChainInv env C R w)
    {accounts : List Pubkey} (hR : ∀ k ∈ accounts, ¬ R k) {ix : Ix C} {r : Option OrderSummary}
    (hr : Ran env w accounts ix r w') : QueuesOk env C R (n + 1) w' := by
  intro x hx ho
  rw [(hr.frame x).1] at ho
  have hq := h x hx ho
  have hq' := hq.mono (Nat.le_succ n)
  cases hr with
  | @create a p _ f1 f2 hp hx' =>
    obtain ⟨m1, m2, m3, m4⟩ := parse_mem hp
    obtain ⟨hc, rfl⟩ := createMarket_ok_iff.1 hx'
    obtain ⟨d1, d2, d3, d4, d5⟩ := created_data hc
    by_cases e1 : x = a.market
    · subst e1; rw [d1]; exact QueueOk.of_byte0 (x := 128) rfl (by decide)
    by_cases e2 : x = a.eventQueue
    · subst e2
      rw [d2]
      have hl := hc.sizeQ
      exact QueueOk.created (hi.fresh _ (hR _ m2) hc.ownerQ (byte0_of_field (n := 0) (by omega) hc.tagQ)) (by omega)
    by_cases e3 : x = a.bids
    · subst e3; rw [d3]
      exact QueueOk.of_byte0 (List.getElem?_set_self (byte0_length hc.tagB)) (by decide)
    by_cases e4 : x = a.asks
    · subst e4; rw [d4]
      exact QueueOk.of_byte0 (List.getElem?_set_self (byte0_length hc.tagA)) (by decide)
    · rw [d5 x e1 e2 e3 e4]; exact hq'
  | @newOrder a p s _ f hp hx =>
    obtain ⟨ha, m, m', hm, he, rfl⟩ := processNewOrder_ok hx
    have hex : m.exec (.newOrder p) = .ok (some s, m') := by simp only [Market.exec]; rw [bind_of_ok he]
    have hre := hi.reach _ (hR _ (parse_mem hp).1) ⟨ha.market, hm.len, hm.tag⟩ m hm
    exact hm.queueOk hre (i := .newOrder p) f hex hq
  | @consume mk qk N _ f hp hx =>
    obtain ⟨o1, _, hk, q, q', hl, he, rfl⟩ := processConsume_ok hx
    unfold storeQueue
    rw [World.setData_data]
    split
    · rename_i e
      subst e
      intro _ q2 h2
      have hkept := EventQueue.popN_kept hl.queue.fits he
      obtain rfl := h2.inj (hl.queue.read_write hkept.2 hkept.1)
      obtain ⟨⟨_, g2⟩, g3⟩ := hq (byte0_of_field (by have := hl.queue.long; omega) hl.queueTag) q hl.queue
      unfold EventQueue.popN at he
      obtain ⟨c, hc, he⟩ := bind_ok he
      obtain ⟨_, rfl⟩ := subU_ok_iff.1 hc
      obtain ⟨s, hs, he⟩ := bind_ok he
      obtain ⟨d, hd, he⟩ := bind_ok he
      obtain ⟨hd0, rfl⟩ := remU_ok_iff.1 hd
      obtain rfl := Except.ok.inj he
      exact ⟨⟨Nat.le_of_lt (Nat.mod_lt _ (by omega)), Nat.le_trans (Nat.sub_le _ _) g2⟩, Nat.le_trans g3 (Nat.le_succ _)⟩
    · exact hq'
  | @cancel a id s _ f hp hx =>
    obtain ⟨ha, b, b', hb, he, rfl⟩ := processCancel_ok hx
    obtain ⟨m, hm, rfl, e⟩ := hi.storedBook (b' := b') (hR _ (parse_mem hp).1) ha.market hb
    have hex := exec_cancel he
    have hre := hi.reach _ (hR _ (parse_mem hp).1) ⟨ha.market, hm.len, hm.tag⟩ m hm
    rw [e]
    exact hm.queueOk hre (i := .cancelOrder id) f hex hq
  | @close a t _ hp hx =>
    obtain ⟨⟨m, hc⟩, rfl⟩ := closeMarket_ok_iff.1 hx
    obtain ⟨d1, d2, d3, d4⟩ := closed_data hc
    by_cases e1 : x = a.market
    · subst e1; rw [d1]; exact QueueOk.of_byte0 (x := 132) rfl (by decide)
    by_cases e2 : x = a.eventQueue
    · subst e2; rw [d2]; exact QueueOk.of_byte0 (x := 132) rfl (by decide)
    by_cases e3 : x = a.bids
    · subst e3; rw [d3]; exact QueueOk.of_byte0 (x := 132) rfl (by decide)
    by_cases e4 : x = a.asks
    · subst e4; rw [d4]; exact QueueOk.of_byte0 (x := 132) rfl (by decide)
    · rw [(closed_other w a t e1 e2 e3 e4).2.1]; exact hq'
  | @massCancel a ids s _ f1 f2 hp hx =>
    obtain ⟨ha, b, b', y, z, hb, he, _, rfl⟩ := processMassCancel_ok hx
    obtain ⟨m, hm, rfl, e⟩ := hi.storedBook (b' := b') (hR _ (parse_mem hp).1) ha.market hb
    have hex := exec_massCancel he
    have hre := hi.reach _ (hR _ (parse_mem hp).1) ⟨ha.market, hm.len, hm.tag⟩ m hm
    rw [e]
    exact hm.queueOk hre (i := .massCancelOrders ids) ⟨f1, f2⟩ hex hq

variable [Borsh C]

theorem QueuesOk.step {env : Env} {R : Pubkey → Prop} {n : Nat} {w w' : World} (h : QueuesOk env C R n w) (hi : ChainInv env C R w)
    (hs : ChainStep env C R w w') : QueuesOk env C R (n + 1) w' := by
  cases hs with
  | call hR hx =>
    obtain ⟨ix, _, hr⟩ := processInstruction_ok_iff.1 hx
    exact h.ran hi hR hr
  | entry hR hreg hx =>
    obtain ⟨reg, r, w1, d, h1, h2, h3, rfl⟩ := entrypoint_ok_iff.1 hx
    obtain ⟨ix, _, hr⟩ := processInstruction_ok_iff.1 h2
    intro x hn ho
    have hne : x ≠ reg := by rintro rfl; exact hn (hreg _ h1)
    have e : w1.setData reg d x = w1 x := by unfold World.setData; rw [if_neg hne]
    rw [e] at ho ⊢
    exact h.ran hi hR hr x hn ho
  | elsewhere he =>
    intro x hx ho
    rcases he x with ⟨g1, g2, _⟩ | ⟨_, g⟩
    · rw [g1] at ho
      rw [g2]
      exact (h x hx ho).mono (Nat.le_succ _)
    · exact QueueOk.fresh (g ho)

theorem Genesis.queuesOk {env : Env} {R : Pubkey → Prop} {w : World} (h : Genesis env w) : QueuesOk env C R 0 w :=
  fun k _ ho => QueueOk.fresh (h k ho)

theorem OnChain.queuesOk {env : Env} {R : Pubkey → Prop} {w : World} (h : OnChain env C R w) :
    ∃ n, QueuesOk env C R n w := by
  obtain ⟨w0, h0, h1⟩ := h
  induction h1 with
  | refl => exact ⟨0, h0.queuesOk⟩
  | step h2 h3 ih =>
    obtain ⟨n, ih⟩ := ih
    exact ⟨n + 1, ih.step (OnChain.inv ⟨w0, h0, h2⟩) h3⟩

end AOB
