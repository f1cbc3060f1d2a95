import Verif.Props.Drain
/-
No call is refused for who makes it. The program looks at no signature and asks for nothing that is not public: the
addresses of a market are stored in its own account, and the ids of its orders in its slabs. (`is_signer` occurs in the
code only where the bindings set it to `false`, `instruction.rs` 121, 145, 164, 184, 204, 223, so a call has no signer in
the model.) So whoever embeds the order book has to keep strangers off its accounts.
-/
set_option linter.unusedSectionVars false

namespace AOB
namespace Chain

variable {C : Type} [CallbackInfo C] {m m' : Market C}

theorem cancel_any (h : Reachable m) (hs : m.queue.header.seqNum ≤ 2 ^ 63) {side : Side} {o : Order C}
    {L R : List (Order C)} (ho : resting m side = L ++ o :: R) :
    ∃ m', m.cancelOrder o.id = .ok (⟨none, o.qty, o.qty * o.price / 2 ^ 32, 0⟩, m') ∧ o.id < 2 ^ 128 ∧
      resting m' side = L ++ R ∧ resting m' side.opposite = resting m side.opposite ∧ pending m' = pending m := by
  obtain ⟨a, ha⟩ := h.known
  have hmem : o ∈ a.orders side := by rw [← ha.rep.resting, ho]; simp
  obtain ⟨a', h1, h2⟩ := cancel1_some ha.inv (by rw [← ha.rep.seq]; exact hs) (RefMarket.mem_all.2 ⟨side, hmem⟩)
  have hr := cancelOrder_refines ha.rep (fun side o ho => (ha.inv.ok side o ho).worth) o.id
  have h3 : a.cancelOrder o.id = .ok (⟨none, o.qty, o.qty * o.price / 2 ^ 32, 0⟩, a') := by
    unfold RefMarket.cancelOrder; rw [h1]; rfl
  rw [h3] at hr
  obtain ⟨m', h4, h5⟩ := hr
  refine ⟨m', h4, SRep.id_lt (ha.rep.tree side) o (mem_prio.2 hmem), ?_, ?_, ?_⟩
  · rw [h5.resting, h2, ← ha.rep.resting, ho]
    have hs := ha.inv.sorted side
    rw [← ha.rep.resting, ho] at hs
    exact filter_ne_split hs
  · rw [h5.resting, h2, ha.rep.resting, List.filter_eq_self]
    intro x hx
    rw [bne_iff_ne]
    exact Ne.symm (ha.inv.ids_ne hmem hx)
  · rw [h5.pending, ha.rep.pending, (cancel1_params h1).2.2]

variable [Pod C] [Borsh C] {env : Env} {R : Pubkey → Prop} {w w' : World} {k : Pubkey}

theorem Calls.frame {accounts : List Pubkey} {ds : List Bytes} (h : Calls env C accounts w ds w') {j : Pubkey}
    (hj : j ∉ accounts) : w' j = w j := by
  induction h with
  | nil => rfl
  | cons a _ ih => rw [ih, (Accounts.C41_frame a).1 j hj]

/-- C102. Any order can be cancelled by anyone: the seventeen bytes `3, id`, sent with the market's four accounts and
whatever others, remove the order, whoever placed it. Nothing else in the book or the queue changes. -/
theorem C102_anyone_cancels (hw : OnChain env C R w) (hR : ¬ R k) (hM : IsMarket env w k)
    (hm : loadMarket C w k = .ok m) (hs : m.queue.header.seqNum ≤ 2 ^ 63) {side : Side} {o : Order C}
    {before behind : List (Order C)} (ho : resting m side = before ++ o :: behind) (rest : List Pubkey) :
    ∃ w' m', Processor.processInstruction env C w (own w k ++ rest) (3 :: toLE 16 o.id) =
        .ok (some ⟨none, o.qty, o.qty * o.price / 2 ^ 32, 0⟩, w') ∧
      IsMarket env w' k ∧ own w' k = own w k ∧ loadMarket C w' k = .ok m' ∧
      resting m' side = before ++ behind ∧ resting m' side.opposite = resting m side.opposite ∧
      pending m' = pending m := by
  obtain ⟨m', h1, h2, h3, h4, h5⟩ := cancel_any (C54_reachable hw hR hM hm) hs ho
  have hx := C55_exact hw hR hM hm (Wire.C45_decode (.cancelOrder o.id) h2) (i := .cancelOrder o.id) rfl rest
  have he : m.exec (.cancelOrder o.id) = .ok (some ⟨none, o.qty, o.qty * o.price / 2 ^ 32, 0⟩, m') := by
    simp only [Market.exec]; rw [bind_of_ok h1]
  rw [he] at hx
  obtain ⟨w', g1, g2, g3, g4⟩ := hx
  exact ⟨w', m', g1, g2, by unfold own; rw [g3], g4, h3, h4, h5⟩

/-- C102. Any number of events can be discarded by anyone, whether or not somebody has acted on them: the nine bytes
`2, n` drop the first `n` events. -/
theorem C102_anyone_discards (hw : OnChain env C R w) (hR : ¬ R k) (hM : IsMarket env w k)
    (hm : loadMarket C w k = .ok m) {n : Nat} (hn : n < 2 ^ 64) (rest : List Pubkey) :
    ∃ w' m', Processor.processInstruction env C w (own w k ++ rest) (2 :: toLE 8 n) = .ok (none, w') ∧
      IsMarket env w' k ∧ own w' k = own w k ∧ loadMarket C w' k = .ok m' ∧
      pending m' = (pending m).drop n ∧ ∀ side, resting m' side = resting m side := by
  obtain ⟨m', h1, h2, h3, _⟩ := C26_consume (C54_reachable hw hR hM hm) n
  have hx := C55_exact hw hR hM hm (Wire.C45_decode (.consumeEvents n) hn) (i := .consumeEvents n) rfl rest
  have he : m.exec (.consumeEvents n) = .ok (none, m') := by
    simp only [Market.exec]; rw [bind_of_ok h1]
  rw [he] at hx
  obtain ⟨w', g1, g2, g3, g4⟩ := hx
  exact ⟨w', m', g1, g2, by unfold own; rw [g3], g4, h2, h3⟩

/-- C102. Any market can be taken down by anyone, and the lamports of its four accounts taken to any account `t` outside
it: there are calls with the market's four accounts, and a last one with these and `t`, that all succeed; after them
the four accounts have nothing and `t` has what they had. Nobody else's account plays a part or changes. -/
theorem C102_anyone_takes_all (hw : OnChain env C R w) (hR : ¬ R k) (hM : IsMarket env w k)
    (hm : loadMarket C w k = .ok m) (hs : m.queue.header.seqNum ≤ 2 ^ 63) {t : Pubkey} (ht : t ∉ own w k)
    (hl : (w t).lamports + ((own w k).map fun j => (w j).lamports).sum < 2 ^ 64) :
    ∃ ds w1 w2, Calls env C (own w k) w ds w1 ∧
      Processor.processInstruction env C w1 (own w k ++ [t]) [4] = .ok (none, w2) ∧
      (w2 t).lamports = (w t).lamports + ((own w k).map fun j => (w j).lamports).sum ∧
      (∀ j ∈ own w k, (w2 j).lamports = 0) ∧ ¬ IsMarket env w2 k ∧ (w2 t).data = (w t).data ∧
      ∀ j, j ∉ own w k → j ≠ t → w2 j = w j := by
  obtain ⟨is, m', h1, h2, h3, h4, h5⟩ := C57_can_be_emptied (C54_reachable hw hR hM hm) hs
  obtain ⟨ds, w1, g1, g2, g3, g4, g5, g6⟩ := calls_of_succeed h1 h2 hw hR hM hm
  have hframe : ∀ j, j ∉ own w k → w1 j = w j := fun j hj => g1.frame hj
  have ht' := ht
  simp only [own, List.mem_cons, List.not_mem_nil, or_false, not_or] at ht
  simp only [own, List.map_cons, List.map_nil, List.sum_cons, List.sum_nil] at hl
  obtain ⟨w2, hc⟩ := Accounts.C37_close_succeeds g2 hR g3 g5 h3 h4 h5 (t := t) (by rw [g4]; exact ht)
    (by simp only [g6, g4]; omega)
  rw [g4] at hc
  have hp : Processor.processInstruction env C w1 (own w k ++ [t]) [4] = .ok (none, w2) :=
    processInstruction_ok_iff.2 ⟨.closeMarket, rfl, .close (a := ⟨k, (stateAt w k).eventQueue, (stateAt w k).bids, (stateAt w k).asks⟩) (target := t) rfl hc⟩
  obtain ⟨e1, e2, e3, e4, e5, e6, _⟩ := Accounts.C37_lamports hc
  refine ⟨ds, w1, w2, g1, hp, ?_, ?_, ?_, ?_, ?_⟩
  · simp only [own, List.map_cons, List.map_nil, List.sum_cons, List.sum_nil]
    simp only [g6] at e1
    omega
  · intro j hj
    simp only [own, List.mem_cons, List.not_mem_nil, or_false] at hj
    rcases hj with rfl | rfl | rfl | rfl
    · exact e2
    · exact e5
    · exact e3
    · exact e4
  · intro hM2
    have := (Accounts.C38_disabled hc k (List.mem_cons_self ..)).1
    rw [hM2.byte0] at this
    cases this
  · obtain ⟨_, rfl⟩ := closeMarket_ok_iff.1 hc
    rw [← hframe t ht']
    simp [closed, World.setLamports_data, World.setData_data, ht]
  · intro j hj hjt
    rw [(Accounts.C41_frame hp).1 j (by simp [hj, hjt]), hframe j hj]

/-! ### Concrete cases: the demo market with 2 of an ask of user 1 resting and a fill waiting -/

section
open DemoChain (key w4 onChain_w4)

theorem demo_w4_market : ∃ m, loadMarket Bytes32 w4 (key 1) = .ok m ∧ m.queue.header.seqNum ≤ 2 ^ 63 ∧
    (∃ o, resting m .ask = [] ++ o :: [] ∧ o.id = DemoChain.askId ∧ o.qty = 2) ∧ (pending m).length = 1 := by
  obtain ⟨m, hm⟩ := Accounts.demo_load (w := w4) (k := key 1) (by decide +kernel)
  have h : (DemoChain.marketAt w4 (key 1)).map (fun m => decide (m.queue.header.seqNum ≤ 2 ^ 63 ∧
      (resting m .ask).map (fun o => (o.id, o.qty)) = [(DemoChain.askId, 2)] ∧ (pending m).length = 1)) = some true := by
    decide +kernel
  unfold DemoChain.marketAt at h
  rw [hm] at h
  obtain ⟨h1, h2, h3⟩ := of_decide_eq_true (Option.some.inj h)
  refine ⟨m, hm, h1, ?_, h3⟩
  match hr : resting m .ask, h2 with
  | [o], h2 =>
    simp only [List.map_cons, List.map_nil, List.cons.injEq, Prod.mk.injEq, and_true] at h2
    exact ⟨o, rfl, h2.1, h2.2⟩
  | _ :: _ :: _, h2 => simp at h2

/-- C102: a stranger (account 8) cancels the ask of user 1. -/
example : ∃ w' m', Processor.processInstruction DemoChain.env Bytes32 w4 (own w4 (key 1) ++ [key 8])
    (3 :: toLE 16 DemoChain.askId) = .ok (some ⟨none, 2, 20, 0⟩, w') ∧ loadMarket Bytes32 w' (key 1) = .ok m' ∧
    resting m' .ask = [] := by
  obtain ⟨m, hm, hs, ⟨o, ho, hid, hq⟩, _⟩ := demo_w4_market
  obtain ⟨w', m', h1, _, _, h4, h5, _⟩ := C102_anyone_cancels onChain_w4 Accounts.demo_notR
    (Accounts.demo_isMarket (by decide +kernel)) hm hs ho [key 8]
  have hp : o.price = 10 * 2 ^ 32 := by unfold Order.price; rw [hid]; decide +kernel
  rw [hid, hq, hp] at h1
  exact ⟨w', m', h1, h4, h5⟩

/-- C102: and discards the fill. -/
example : ∃ w' m', Processor.processInstruction DemoChain.env Bytes32 w4 (own w4 (key 1) ++ [key 8])
    (2 :: toLE 8 1) = .ok (none, w') ∧ loadMarket Bytes32 w' (key 1) = .ok m' ∧ pending m' = [] := by
  obtain ⟨m, hm, _, _, hl⟩ := demo_w4_market
  obtain ⟨w', m', h1, _, _, h4, h5, _⟩ := C102_anyone_discards onChain_w4 Accounts.demo_notR
    (Accounts.demo_isMarket (by decide +kernel)) hm (n := 1) (by decide) [key 8]
  exact ⟨w', m', h1, h4, by rw [h5, List.drop_eq_nil_iff]; omega⟩

/-- C102: and takes the 10000 lamports of the market. -/
example : ∃ ds w1 w2, Calls DemoChain.env Bytes32 (own w4 (key 1)) w4 ds w1 ∧
    Processor.processInstruction DemoChain.env Bytes32 w1 (own w4 (key 1) ++ [key 8]) [4] = .ok (none, w2) ∧
    (w2 (key 8)).lamports = 10007 := by
  obtain ⟨m, hm, hs, _⟩ := demo_w4_market
  obtain ⟨ds, w1, w2, h1, h2, h3, _⟩ := C102_anyone_takes_all onChain_w4 Accounts.demo_notR
    (Accounts.demo_isMarket (by decide +kernel)) hm hs (t := key 8) (by decide +kernel) (by decide +kernel)
  exact ⟨ds, w1, w2, h1, h2, h3.trans (by decide +kernel)⟩

end

end Chain
end AOB
