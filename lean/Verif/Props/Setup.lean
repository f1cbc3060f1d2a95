import Verif.Model.Setup
import Verif.Props.Client
import Verif.Props.Drain
import Verif.Props.Stuck
/-
From nothing to a market: the accounts the client creates, what the program makes of them, and what the client's
loaders find from the first moment of a market to the last.
-/
set_option linter.unusedSectionVars false

namespace AOB
namespace Setup
open Js (slabKey)

variable {C : Type} [Pod C] [CallbackInfo C] [Borsh C] {env : Env} {R : Pubkey → Prop} {w w' : World} {k : Pubkey}

/-! ### C81 -/

/-- Nobody uses the address: no lamports, no data, no owner but the system program. -/
def Unused (w : World) (k : Pubkey) : Prop := w k = ⟨SYSTEM_ID, 0, []⟩

/-- The world in which the four accounts have been created at the expense of `payer`. -/
def prepared (w : World) (payer : Pubkey) (a : BookAccounts) (programId : Pubkey) (minBalance : Nat → Nat)
    (queueSize slabSize : Nat) : World := fun j =>
  if j = a.market then ⟨programId, minBalance 120, List.replicate 120 0⟩
  else if j = a.eventQueue then ⟨programId, minBalance queueSize, List.replicate queueSize 0⟩
  else if j = a.bids ∨ j = a.asks then ⟨programId, minBalance slabSize, List.replicate slabSize 0⟩
  else if j = payer then
    { w j with lamports := (w j).lamports - (minBalance queueSize + 2 * minBalance slabSize + minBalance 120) }
  else w j

/-- C81. A funded wallet can create the accounts the client asks for at unused addresses: exactly the four accounts
appear, zeroed, of the computed sizes, owned by the program and with the minimum balance, and the payer has paid
exactly for them. -/
theorem C81_accounts {minBalance : Nat → Nat} {ca : Bytes} {cil cidl ev ord mb tick : Nat} {payer pid : Pubkey}
    {a : BookAccounts} (hd : [payer, a.market, a.eventQueue, a.bids, a.asks].Nodup)
    (hu : ∀ j ∈ [a.market, a.eventQueue, a.bids, a.asks], Unused w j) (hp : IsWallet w payer)
    (hf : minBalance (Js.EventQueue.computeAllocationSize ev cil) + 2 * minBalance (Js.Slab.computeAllocationSize ord cil) +
      minBalance 120 ≤ (w payer).lamports)
    (hq : Js.EventQueue.computeAllocationSize ev cil ≤ MAX_ACCOUNT_LEN)
    (hs : Js.Slab.computeAllocationSize ord cil ≤ MAX_ACCOUNT_LEN) :
    runAll (Js.createMarket minBalance ca cil cidl ev ord mb payer tick pid a).1 w =
      some (prepared w payer a pid minBalance (Js.EventQueue.computeAllocationSize ev cil)
        (Js.Slab.computeAllocationSize ord cil)) := by
  obtain ⟨m, q, b, s⟩ := a
  unfold Js.createMarket prepared
  dsimp only at *
  generalize Js.EventQueue.computeAllocationSize ev cil = qs at *
  generalize Js.Slab.computeAllocationSize ord cil = ss at *
  generalize minBalance qs = lq at *
  generalize minBalance ss = ls at *
  generalize minBalance 120 = lm at *
  have um := hu m (by simp)
  have uq := hu q (by simp)
  have ub := hu b (by simp)
  have us := hu s (by simp)
  simp only [List.nodup_cons, List.mem_cons, List.not_mem_nil, or_false, not_or, not_false_eq_true, List.nodup_nil,
    and_true] at hd
  obtain ⟨⟨p1, p2, p3, p4⟩, ⟨m1, m2, m3⟩, ⟨q1, q2⟩, b1⟩ := hd
  obtain ⟨w1, w2⟩ := hp
  unfold Unused at um uq ub us
  have hm : (120 : Nat) ≤ MAX_ACCOUNT_LEN := by decide
  have l1 : lq ≤ (w payer).lamports := by omega
  have l2 : ls ≤ (w payer).lamports - lq := by omega
  have l3 : ls ≤ (w payer).lamports - lq - ls := by omega
  have l4 : lm ≤ (w payer).lamports - lq - ls - ls := by omega
  have e : (w payer).lamports - (lq + 2 * ls + lm) = (w payer).lamports - lq - ls - ls - lm := by omega
  simp only [runAll, CreateAccount.run, IsWallet, um, uq, ub, us, w1, w2, hq, hs, hm, l1, l2, l3, l4, p1, p2, p3, p4,
    Ne.symm p1, Ne.symm p2, Ne.symm p3, Ne.symm p4, m1, m2, m3, q1, q2, b1, Ne.symm m1, Ne.symm m2, Ne.symm m3,
    Ne.symm q1, Ne.symm q2, Ne.symm b1, ne_eq, not_false_eq_true, and_self, if_true, if_false, Option.bind_some]
  congr 1
  funext j
  by_cases jm : j = m
  · subst jm; simp
  by_cases jq : j = q
  · subst jq; simp [jm, q1, q2, Ne.symm p2]
  by_cases jb : j = b
  · subst jb; simp [jm, jq, b1, Ne.symm p3]
  by_cases js : j = s
  · subst js; simp [jm, jq, Ne.symm p4]
  by_cases jp : j = payer
  · subst jp; simp [jm, jq, jb, js, e]
  · simp [jm, jq, jb, js, jp]

theorem prepared_onChain {payer : Pubkey} {a : BookAccounts} {minBalance : Nat → Nat} {qs ss : Nat}
    (hw : OnChain env C R w) (hsys : env.programId ≠ SYSTEM_ID) (hp : IsWallet w payer)
    (hu : ∀ j ∈ [a.market, a.eventQueue, a.bids, a.asks], Unused w j) (hq : qs ≤ MAX_ACCOUNT_LEN)
    (hs : ss ≤ MAX_ACCOUNT_LEN) : OnChain env C R (prepared w payer a env.programId minBalance qs ss) := by
  obtain ⟨w0, h0, h1⟩ := hw
  have ho : ∀ j ∈ [a.market, a.eventQueue, a.bids, a.asks], (w j).owner ≠ env.programId := by
    intro j hj e
    rw [show w j = _ from hu j hj] at e
    exact hsys e.symm
  refine ⟨w0, h0, .step h1 (.elsewhere fun j => ?_)⟩
  unfold prepared
  split
  · rename_i e; subst e
    exact .inr ⟨.inl (ho _ (by simp)), fun _ => DemoChain.fresh_zeros _ (by decide)⟩
  split
  · rename_i e; subst e
    exact .inr ⟨.inl (ho _ (by simp)), fun _ => DemoChain.fresh_zeros _ hq⟩
  split
  · rename_i e
    refine .inr ⟨.inl (ho _ ?_), fun _ => DemoChain.fresh_zeros _ hs⟩
    rcases e with e | e <;> subst e <;> simp
  split
  · rename_i e; subst e
    exact .inr ⟨.inl (by rw [hp.1]; exact hsys.symm), fun he => absurd (he.symm.trans hp.1) hsys⟩
  · exact .inl ⟨rfl, rfl, Nat.le_refl _⟩

theorem prepared_at {payer pid : Pubkey} {a : BookAccounts} {minBalance : Nat → Nat} {qs ss : Nat}
    (hd : [payer, a.market, a.eventQueue, a.bids, a.asks].Nodup) {w₁ : World}
    (hw₁ : w₁ = prepared w payer a pid minBalance qs ss) :
    w₁ a.market = ⟨pid, minBalance 120, List.replicate 120 0⟩ ∧
    w₁ a.eventQueue = ⟨pid, minBalance qs, List.replicate qs 0⟩ ∧
    w₁ a.bids = ⟨pid, minBalance ss, List.replicate ss 0⟩ ∧ w₁ a.asks = ⟨pid, minBalance ss, List.replicate ss 0⟩ := by
  simp only [List.nodup_cons, List.mem_cons, List.not_mem_nil, or_false, not_or, not_false_eq_true, List.nodup_nil,
    and_true] at hd
  obtain ⟨⟨p1, p2, p3, p4⟩, ⟨m1, m2, m3⟩, ⟨q1, q2⟩, b1⟩ := hd
  rw [hw₁]
  unfold prepared
  refine ⟨by rw [if_pos rfl], ?_, ?_, ?_⟩
  · rw [if_neg (Ne.symm m1), if_pos rfl]
  · rw [if_neg (Ne.symm m2), if_neg (Ne.symm q1), if_pos (.inl rfl)]
  · rw [if_neg (Ne.symm m3), if_neg (Ne.symm q2), if_pos (.inr rfl)]

theorem create_proc {a : BookAccounts} {p : CreateParams} (hr : p.minBaseOrderSize < 2 ^ 64 ∧ p.tickSize < 2 ^ 64)
    {r : Option OrderSummary} :
    Processor.processInstruction env C w [a.market, a.eventQueue, a.bids, a.asks]
      (Ix.createMarket p : Ix C).binding = .ok (r, w') ↔ r = none ∧ Processor.createMarket env C w a p = .ok w' := by
  have hix : decodeIx C (Ix.createMarket p : Ix C).binding = .ok (.createMarket p) :=
    Wire.C45_decode (.createMarket p) hr
  constructor
  · intro h
    obtain ⟨ix, h1, h2⟩ := processInstruction_ok_iff.1 h
    obtain rfl := Except.ok.inj (hix.symm.trans h1)
    cases h2 with
    | create _ _ hp hx => obtain rfl := Except.ok.inj hp; exact ⟨rfl, hx⟩
  · rintro ⟨rfl, h⟩
    have e8 : (256 : Nat) ^ 8 = 2 ^ 64 := by decide
    exact processInstruction_ok_iff.2 ⟨_, hix, .create (e8 ▸ hr.1) (e8 ▸ hr.2) rfl h⟩

theorem queue_size (ev c : Nat) : Js.EventQueue.computeAllocationSize ev c = 32 + ev * (40 + 2 * c) := by
  unfold Js.EventQueue.computeAllocationSize; omega

/-- C81. In the accounts the client has created the program can create a market exactly if there is room for five
events and the two parameters are not zero. -/
theorem C81_create_iff {minBalance : Nat → Nat} (hrent : ∀ n, env.rentExempt (minBalance n) n = true) {payer : Pubkey}
    {a : BookAccounts} {ev ord : Nat} (hd : [payer, a.market, a.eventQueue, a.bids, a.asks].Nodup)
    {p : CreateParams} (hr : p.minBaseOrderSize < 2 ^ 64 ∧ p.tickSize < 2 ^ 64)
    {w₁ : World} (hw₁ : w₁ = prepared w payer a env.programId minBalance
      (Js.EventQueue.computeAllocationSize ev (Pod.size C)) (Js.Slab.computeAllocationSize ord (Pod.size C))) :
    (∃ x, Processor.processInstruction env C w₁ [a.market, a.eventQueue, a.bids, a.asks]
        (Ix.createMarket p : Ix C).binding = .ok x) ↔
      5 ≤ ev ∧ p.minBaseOrderSize ≠ 0 ∧ p.tickSize ≠ 0 := by
  obtain ⟨eM, eQ, eB, eA⟩ := prepared_at hd hw₁
  have hslab : 8 ≤ Js.Slab.computeAllocationSize ord (Pod.size C) := by
    unfold Js.Slab.computeAllocationSize
    omega
  have hz : ∀ n i l, field (List.replicate n 0) i l = 0 := by
    intro n i l
    unfold field
    rw [List.drop_replicate, List.take_replicate]
    exact ofLE_zeros _
  constructor
  · rintro ⟨⟨r, w₂⟩, h⟩
    obtain ⟨_, _, _, ⟨g1, g2⟩, _, _, n, g3, g4⟩ := Accounts.C39_create_iff.1 ⟨_, ((create_proc hr).1 h).2⟩
    refine ⟨?_, g1, g2⟩
    rw [eQ] at g4
    rw [List.length_replicate, queue_size] at g4
    have : ev * (40 + 2 * Pod.size C) = n * (40 + 2 * Pod.size C) := by omega
    rw [Nat.mul_right_cancel (by omega) this]; exact g3
  · rintro ⟨g1, g2, g3⟩
    obtain ⟨w₂, h⟩ := (Accounts.C39_create_iff (env := env) (C := C) (w := w₁) (a := a) (p := p)).2 (show _ from
      ⟨⟨by rw [eQ], by rw [eB], by rw [eA]⟩, by
        intro j hj
        simp only [List.mem_cons, List.not_mem_nil, or_false] at hj
        rcases hj with rfl | rfl | rfl | rfl
        · rw [eM]; dsimp only; rw [List.length_replicate]; exact hrent _
        · rw [eQ]; dsimp only; rw [List.length_replicate]; exact hrent _
        · rw [eB]; dsimp only; rw [List.length_replicate]; exact hrent _
        · rw [eA]; dsimp only; rw [List.length_replicate]; exact hrent _,
      (List.nodup_cons.1 hd).2, ⟨g2, g3⟩,
      ⟨by rw [eM]; exact hz _ _ _, by rw [eQ]; exact hz _ _ _,
        by rw [eB]; dsimp only; rw [List.getElem?_replicate, if_pos (by omega)],
        by rw [eA]; dsimp only; rw [List.getElem?_replicate, if_pos (by omega)]⟩,
      by rw [eM]; exact List.length_replicate,
      ev, g1, by rw [eQ]; dsimp only; rw [List.length_replicate, queue_size]⟩)
    exact ⟨(none, w₂), (create_proc hr).2 ⟨rfl, h⟩⟩

/-- C81. For at least one order, the market is then ready: the client finds it under its address, and it is the empty
market with just the capacities asked for. -/
theorem C81_ready (hw : OnChain env C R w) (hsys : env.programId ≠ SYSTEM_ID) {minBalance : Nat → Nat} {payer : Pubkey}
    {a : BookAccounts} {ev ord : Nat} (hd : [payer, a.market, a.eventQueue, a.bids, a.asks].Nodup)
    (hR : ∀ j ∈ [a.market, a.eventQueue, a.bids, a.asks], ¬ R j)
    (hu : ∀ j ∈ [a.market, a.eventQueue, a.bids, a.asks], Unused w j) (hp : IsWallet w payer)
    (hq : Js.EventQueue.computeAllocationSize ev (Pod.size C) ≤ MAX_ACCOUNT_LEN)
    (hs : Js.Slab.computeAllocationSize ord (Pod.size C) ≤ MAX_ACCOUNT_LEN) (ho : 1 ≤ ord)
    {p : CreateParams} (hr : p.minBaseOrderSize < 2 ^ 64 ∧ p.tickSize < 2 ^ 64)
    {w₁ w₂ : World} (hw₁ : w₁ = prepared w payer a env.programId minBalance
      (Js.EventQueue.computeAllocationSize ev (Pod.size C)) (Js.Slab.computeAllocationSize ord (Pod.size C)))
    {r : Option OrderSummary} (h : Processor.processInstruction env C w₁ [a.market, a.eventQueue, a.bids, a.asks]
        (Ix.createMarket p : Ix C).binding = .ok (r, w₂)) :
    OnChain env C R w₂ ∧ IsMarket env w₂ a.market ∧
    Js.retrieve w₂ a.market = .ok (128, ⟨a.eventQueue, a.bids, a.asks, p.minBaseOrderSize, p.tickSize⟩) ∧
    ∃ m : Market C, loadMarket C w₂ a.market = .ok m ∧
      ReachBy { minBase := p.minBaseOrderSize, tick := p.tickSize, capBids := ord, capAsks := ord, capEvents := ev } [] m ∧
      resting m .bid = [] ∧ resting m .ask = [] ∧ pending m = [] := by
  have hw1 : OnChain env C R w₁ := hw₁ ▸ prepared_onChain hw hsys hp hu hq hs
  obtain ⟨eM, eQ, eB, eA⟩ := prepared_at hd hw₁
  obtain ⟨_, hc⟩ := (create_proc hr).1 h
  have hw2 : OnChain env C R w₂ := by
    obtain ⟨w0, h0, h1⟩ := hw1
    exact ⟨w0, h0, .step h1 (.call hR h)⟩
  obtain ⟨h1, h2, h3⟩ := Accounts.C39_empty_market hw1 hR hr (nb := ord) (na := ord) (n := ev)
    (by rw [eB]; dsimp only; rw [List.length_replicate]; exact (Client.C59_sizes ord).1 ho)
    (by rw [eA]; dsimp only; rw [List.length_replicate]; exact (Client.C59_sizes ord).1 ho)
    (by rw [eQ]; dsimp only; rw [List.length_replicate]; exact (Client.C59_sizes ev).2) hc
  have hM := h2 (by rw [eM])
  refine ⟨hw2, hM, ?_, h3⟩
  have hlive := (hw2.inv.link _ (hR _ (by simp)) hM).live
  unfold Js.retrieve Js.getAccountInfo
  rw [if_neg (by omega)]
  dsimp only
  rw [Client.C59_market hM, h1]

/-- C81. For no orders, the market is created all the same, and is one of those of `C80_for_ever`. -/
theorem C81_no_orders {minBalance : Nat → Nat} {payer : Pubkey}
    {a : BookAccounts} {ev : Nat} (hd : [payer, a.market, a.eventQueue, a.bids, a.asks].Nodup)
    {p : CreateParams} (hr : p.minBaseOrderSize < 2 ^ 64 ∧ p.tickSize < 2 ^ 64)
    {w₁ w₂ : World} (hw₁ : w₁ = prepared w payer a env.programId minBalance
      (Js.EventQueue.computeAllocationSize ev (Pod.size C)) (Js.Slab.computeAllocationSize 0 (Pod.size C)))
    {r : Option OrderSummary} (h : Processor.processInstruction env C w₁ [a.market, a.eventQueue, a.bids, a.asks]
        (Ix.createMarket p : Ix C).binding = .ok (r, w₂)) :
    IsMarket env w₂ a.market ∧ Stuck.Unreadable C w₂ a.market := by
  obtain ⟨eM, eQ, eB, eA⟩ := prepared_at hd hw₁
  obtain ⟨_, hx⟩ := (create_proc hr).1 h
  obtain ⟨hc, rfl⟩ := createMarket_ok_iff.1 hx
  have e8 : (256 : Nat) ^ 8 = 2 ^ 64 := by decide
  have hst := stateAt_created hc (e8 ▸ hr.1) (e8 ▸ hr.2)
  obtain ⟨_, f2, _⟩ := Accounts.C41_frame h
  obtain ⟨d1, _⟩ := created_data hc
  refine ⟨⟨?_, ?_, ?_⟩, ?_⟩
  · rw [(f2 _).1, eM]
  · rw [(f2 _).2, eM]; exact List.length_replicate
  · rw [d1]; exact field_head _ (by decide)
  · unfold Stuck.Unreadable
    rw [hst]
    dsimp only
    rw [(f2 _).2, eB]
    dsimp only
    rw [List.length_replicate, (Client.C59_no_orders (C := C) _).2]
    unfold slabReadable
    rw [decide_eq_false (by omega)]
    intro h
    cases h.1

/-- C81. But the transaction the client builds never succeeds, in any world and however the program is deployed: its
last instruction is refused (see `C58_createMarket_witness`). -/
theorem C81_client_refused (minBalance : Nat → Nat) (ca : Bytes) (cil cidl ev ord mb tick : Nat) (payer pid : Pubkey)
    (a : BookAccounts) (w : World) (accounts : List Pubkey) :
    (∀ x, Processor.processInstruction env C w accounts
      (Js.createMarket minBalance ca cil cidl ev ord mb payer tick pid a).2.serialize ≠ .ok x) ∧
    ∀ w', entrypoint env C w accounts
      (Js.createMarket minBalance ca cil cidl ev ord mb payer tick pid a).2.serialize ≠ .ok w' := by
  have h1 : ∀ accounts x, Processor.processInstruction env C w accounts
      (Js.createMarket minBalance ca cil cidl ev ord mb payer tick pid a).2.serialize ≠ .ok x :=
    fun accounts x => Client.C58_createMarket_witness ca cil cidl mb tick 0 w accounts x
  refine ⟨h1 accounts, fun w' h => ?_⟩
  obtain ⟨reg, r, w3, d, g1, g2, _⟩ := entrypoint_ok_iff.1 h
  exact h1 _ _ g2

/-- C81. As long as a market exists the client's loaders find its accounts, and read of them what they contain. -/
theorem C81_loaders (hw : OnChain env C R w) (hR : ¬ R k) (hM : IsMarket env w k) (cil : Nat) :
    Js.retrieve w k = .ok (128, stateAt w k) ∧
    (∀ side, Js.loadSlab w (stateAt w k) cil side = Js.Slab.deserialize (w (slabKey (stateAt w k) side)).data cil) ∧
    Js.loadQueue w (stateAt w k).eventQueue cil = Js.EventQueue.parse cil (w (stateAt w k).eventQueue).data := by
  have hL := hw.inv.link k hR hM
  have e : ∀ j, 0 < (w j).lamports → Js.getAccountInfo w j = some (w j).data := by
    intro j hj
    unfold Js.getAccountInfo
    rw [if_neg (by omega)]
  refine ⟨?_, ?_, ?_⟩
  · unfold Js.retrieve; rw [e _ hL.live]; exact Client.C59_market hM
  · intro side
    cases side with
    | bid => unfold Js.loadSlab; dsimp only; rw [e _ hL.liveB]; rfl
    | ask => unfold Js.loadSlab; dsimp only; rw [e _ hL.liveA]; rfl
  · unfold Js.loadQueue; rw [e _ hL.liveQ]

/-- C81. After `close_market` they find nothing any more. -/
theorem C81_closed {a : BookAccounts} {t : Pubkey} (h : Processor.closeMarket env C w a t = .ok w') (cil : Nat) :
    Js.retrieve w' a.market = .error .panic ∧
    (∀ side, Js.loadSlab w' (stateAt w a.market) cil side = .error .panic) ∧
    Js.loadQueue w' (stateAt w a.market).eventQueue cil = .error .panic := by
  obtain ⟨_, h1, h2, h3, h4, _⟩ := Accounts.C37_lamports h
  obtain ⟨⟨m, hc⟩, _⟩ := closeMarket_ok_iff.1 h
  rw [← hc.keyQ]
  have e : ∀ j, (w' j).lamports = 0 → Js.getAccountInfo w' j = none := by
    intro j hj
    unfold Js.getAccountInfo
    rw [if_pos hj]
  refine ⟨?_, ?_, ?_⟩
  · unfold Js.retrieve; rw [e _ h1]
  · intro side
    cases side with
    | bid => unfold Js.loadSlab; dsimp only; rw [← hc.keyB, e _ h2]
    | ask => unfold Js.loadSlab; dsimp only; rw [← hc.keyA, e _ h3]
  · unfold Js.loadQueue; rw [e _ h4]

/-! ### Concrete cases -/

section
open DemoChain (key)

/-- A world with a single wallet, 5, of 20000 lamports. -/
def blank : World := fun j => ⟨SYSTEM_ID, if j = key 5 then 20000 else 0, []⟩

def four : BookAccounts := ⟨key 1, key 2, key 3, key 4⟩

def minBalance (n : Nat) : Nat := n + 128

theorem system_ne : key 9 ≠ SYSTEM_ID := by decide +kernel

theorem blank_onChain : OnChain DemoChain.env Bytes32 DemoChain.R blank :=
  ⟨blank, fun _ hj => absurd (Eq.symm hj) system_ne, .refl⟩

theorem blank_unused : ∀ j ∈ [four.market, four.eventQueue, four.bids, four.asks], Unused blank j := by
  unfold Unused; decide +kernel

theorem blank_wallet : IsWallet blank (key 5) := ⟨rfl, rfl⟩

/-- The accounts of a market for five events and two orders a side cost 1552 lamports here. -/
example : runAll (Js.createMarket minBalance [] 32 32 5 2 1 (key 5) 1 (key 9) four).1 blank =
    some (prepared blank (key 5) four (key 9) minBalance 552 184) :=
  C81_accounts (by decide +kernel) blank_unused blank_wallet (by decide +kernel) (by decide +kernel) (by decide +kernel)

/-- And the program can create a market in them, which is ready. -/
example : ∃ w₂ : World, IsMarket DemoChain.env w₂ (key 1) ∧
    Js.retrieve w₂ (key 1) = .ok (128, ⟨key 2, key 3, key 4, 1, 1⟩) ∧
    ∃ m : Market Bytes32, loadMarket Bytes32 w₂ (key 1) = .ok m ∧
      ReachBy { minBase := 1, tick := 1, capBids := 2, capAsks := 2, capEvents := 5 } [] m := by
  obtain ⟨⟨r, w₂⟩, h⟩ := (C81_create_iff (C := Bytes32) (env := DemoChain.env) (w := blank) (minBalance := minBalance)
    (fun n => decide_eq_true (Nat.le_refl _)) (payer := key 5) (a := four) (ev := 5) (ord := 2) (by decide +kernel)
    (p := ⟨1, 1⟩) (by decide) rfl).2 (by decide)
  obtain ⟨_, h2, h3, m, h4, h5, _⟩ := C81_ready blank_onChain (by decide +kernel) (by decide +kernel)
    (by show ∀ j ∈ _, ¬ j = key 6; decide +kernel) blank_unused blank_wallet (by decide +kernel) (by decide +kernel)
    (by decide) (by decide) rfl h
  exact ⟨w₂, h2, h3, m, h4, h5⟩

/-- For no orders the slabs are created with 8 bytes. -/
example : ∃ w₂ : World, IsMarket DemoChain.env w₂ (key 1) ∧ Stuck.Unreadable Bytes32 w₂ (key 1) := by
  obtain ⟨⟨r, w₂⟩, h⟩ := (C81_create_iff (C := Bytes32) (env := DemoChain.env) (w := blank) (minBalance := minBalance)
    (fun n => decide_eq_true (Nat.le_refl _)) (payer := key 5) (a := four) (ev := 5) (ord := 0) (by decide +kernel)
    (p := ⟨1, 1⟩) (by decide) rfl).2 (by decide)
  exact ⟨w₂, C81_no_orders (by decide +kernel) (by decide) rfl h⟩

example := C81_loaders DemoChain.onChain_w4 (k := key 1) (by show key 1 ≠ key 6; decide +kernel)
  (Accounts.demo_isMarket (by decide +kernel)) 32

example := C81_closed Accounts.demo_closed.choose_spec 32

end

end Setup
end AOB
