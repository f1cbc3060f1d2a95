import Verif.Props.SlotBytes
import Verif.Props.Keep
/-
C113: an order that has left does not come back.
-/
namespace AOB
section
variable {C : Type} [CallbackInfo C] {m : Market C} {c : Config} {is : List (Instr C)}

/-- C113: an order that rests before and after any transactions has not grown, and has the same price and callback
information. -/
theorem C113_never_grows (h : ReachBy c is m) {js : List (Instr C)} (hj : ∀ i ∈ js, i.Ok)
    (hs : (m.run js).queue.header.seqNum ≤ 2 ^ 63) {side : Side} {o o' : Order C} (ho : o ∈ resting m side)
    (ho' : o' ∈ resting (m.run js) side) (hid : o'.id = o.id) : o'.qty ≤ o.qty ∧ o'.price = o.price ∧ o'.cb = o.cb := by
  obtain ⟨_, hseq⟩ := seq_resting h (Nat.le_trans (run_seq h hj) hs) ho
  rcases run_came side h hj hs ho' with ⟨y, hy, e1, e2, e3⟩ | hn
  · have hd := h.known.1.inv.nodup side
    rw [← h.known.1.rep.resting] at hd
    obtain rfl := List.inj_on_of_nodup_map hd hy ho (e1.trans hid)
    exact ⟨e3, by unfold Order.price; rw [hid], e2.symm⟩
  · rw [hid] at hn; omega

/-- The side a resting order is on is the one its id names. -/
theorem side_of_resting (h : ReachBy c is m) (hs : m.queue.header.seqNum ≤ 2 ^ 63) {side : Side} {o : Order C}
    (ho : o ∈ resting m side) : getSideFromOrderId o.id = side := by
  obtain ⟨hk, _, _⟩ := h.known
  rw [hk.rep.resting] at ho
  rw [hk.seqNum] at hs
  rw [sideOfId_eq]
  exact (hk.inv.ok side o ho).sideOfId hs

/-- C113: an order that rested and no longer rests never rests again, on neither side, whatever follows, and an attempt to
cancel it fails. -/
theorem C113_gone (h : ReachBy c is m) {js ks : List (Instr C)} (hj : ∀ i ∈ js, i.Ok) (hk : ∀ i ∈ ks, i.Ok)
    (hs : ((m.run js).run ks).queue.header.seqNum ≤ 2 ^ 63) {side : Side} {o : Order C} (ho : o ∈ resting m side)
    (hgone : ∀ x ∈ resting (m.run js) side, x.id ≠ o.id) :
    (∀ side', ∀ x ∈ resting ((m.run js).run ks) side', x.id ≠ o.id) ∧
    ∀ s m', ((m.run js).run ks).cancelOrder o.id ≠ .ok (s, m') := by
  have h1 : ReachBy c (is ++ js) (m.run js) := h.append hj
  have h2 : ReachBy c (is ++ js ++ ks) ((m.run js).run ks) := h1.append hk
  have s1 := run_seq h1 hk
  have s0 := run_seq h hj
  obtain ⟨_, hseq⟩ := seq_resting h (by omega) ho
  have key : ∀ side', ∀ x ∈ resting ((m.run js).run ks) side', x.id ≠ o.id := by
    intro side' x hx hid
    have e1 := side_of_resting h2 hs hx
    rw [hid, side_of_resting h (by omega) ho] at e1
    subst e1
    rcases run_came side h1 hk hs hx with ⟨y, hy, e1, _⟩ | hn
    · exact hgone y hy (e1.trans hid)
    · rw [hid] at hn; omega
  refine ⟨key, fun s m' he => ?_⟩
  rcases C22_cancel_missing h2.reachable key with e | ⟨e, _⟩ <;> (rw [e] at he; cases he)

/-- C113: no order is cancelled twice. -/
theorem C113_cancel_once (h : ReachBy c is m) {id : Nat} (hi : (Instr.cancelOrder id : Instr C).Ok) {s : OrderSummary}
    {m' : Market C} (he : m.cancelOrder id = .ok (s, m')) {ks : List (Instr C)} (hk : ∀ i ∈ ks, i.Ok)
    (hs : (m'.run ks).queue.header.seqNum ≤ 2 ^ 63) : ∀ s2 m2, (m'.run ks).cancelOrder id ≠ .ok (s2, m2) := by
  have hrun : m.run [.cancelOrder id] = m' := by
    simp only [Market.run, List.foldl_cons, List.foldl_nil, Market.step, Market.exec, he, ok_bind]
  have hj : ∀ i ∈ [(.cancelOrder id : Instr C)], i.Ok := fun i hi' => by rw [List.mem_singleton.1 hi']; exact hi
  have s1 := run_seq h hj
  have s2 := run_seq (h.append hj) hk
  rw [hrun] at s1 s2
  by_cases hno : ∀ side, ∀ o ∈ resting m side, o.id ≠ id
  · rcases C22_cancel_missing h.reachable hno with e | ⟨e, _⟩ <;> (rw [e] at he; cases he)
  · push Not at hno
    obtain ⟨side, o, ho, rfl⟩ := hno
    obtain ⟨ha, _, _⟩ := h.known
    generalize (c.ref : RefMarket C).run is = a at ha
    have hmem : o ∈ a.orders side := by rw [← ha.rep.resting]; exact ho
    obtain ⟨a', h1, h2⟩ := cancel1_some ha.inv (by rw [← ha.seqNum]; omega) (RefMarket.mem_all.2 ⟨side, hmem⟩)
    have hr := cancelOrder_refines ha.rep (fun side o ho => (ha.inv.ok side o ho).worth) o.id
    have h3 : a.cancelOrder o.id = .ok (⟨none, o.qty, o.qty * o.price / 2 ^ 32, 0⟩, a') := by
      unfold RefMarket.cancelOrder; rw [h1]; rfl
    rw [h3] at hr
    obtain ⟨m'', h4, h5⟩ := hr
    rw [he] at h4
    obtain rfl := (Prod.mk.inj (Except.ok.inj h4)).2
    have := C113_gone h hj hk (by rw [hrun]; exact hs) ho (by
      rw [hrun, h5.resting, h2]
      intro x hx
      exact bne_iff_ne.1 (List.mem_filter.1 hx).2)
    rw [hrun] at this
    exact this.2

end

namespace Chain
variable {C : Type} [CallbackInfo C] [Pod C] [Borsh C] {env : Env} {R : Pubkey → Prop} {w w1 w2 : World} {k : Pubkey} {m : Market C}

/-- C113, on the chain: until the market is closed, an order that has left does not come back, and one that stays does not
grow. -/
theorem C113_chain (hw : OnChain env C R w) (hR : ¬ R k) (hM : IsMarket env w k) (hm : loadMarket C w k = .ok m)
    (h1 : ChainRun env C R w w1) (h2 : ChainRun env C R w1 w2) :
    (∃ w3, ChainRun env C R w w3 ∧ ChainRun env C R w3 w2 ∧ (w3 k).data[0]? = some 132) ∨
    ∃ m1 m2, loadMarket C w1 k = .ok m1 ∧ loadMarket C w2 k = .ok m2 ∧ (m2.queue.header.seqNum ≤ 2 ^ 63 →
      ∀ side, ∀ o ∈ resting m side,
        ((∀ x ∈ resting m1 side, x.id ≠ o.id) → ∀ side', ∀ x ∈ resting m2 side', x.id ≠ o.id) ∧
        ∀ x ∈ resting m2 side, x.id = o.id → x.qty ≤ o.qty ∧ x.price = o.price ∧ x.cb = o.cb) := by
  have run : ∀ {a b d : World}, ChainRun env C R a b → ChainRun env C R b d → ChainRun env C R a d := by
    intro a b d f g
    induction g with
    | refl => exact f
    | step _ hs ih => exact ih.step hs
  obtain ⟨is, hf, ⟨hM1, hm1⟩ | ⟨x1, x2, a1, a2, a3, _, _, _, _, a4⟩⟩ := C54_run hw hR hM hm h1
  · obtain ⟨js, hg, ⟨hM2, hm2⟩ | ⟨x1, x2, a1, a2, a3, _, _, _, _, a4⟩⟩ := C54_run (OnChain.run hw h1) hR hM1 hm1 h2
    · obtain ⟨c, is0, hr⟩ := C54_reachable hw hR hM hm
      have hj : ∀ i ∈ is, i.Ok := fun i hi => (hf i hi).ok
      have hk : ∀ i ∈ js, i.Ok := fun i hi => (hg i hi).ok
      have hrun : (m.run is).run js = m.run (is ++ js) := by simp only [Market.run, List.foldl_append]
      refine .inr ⟨_, _, hm1, hm2, fun hs side o ho => ⟨fun hgone => (C113_gone hr hj hk hs ho hgone).1, fun x hx hid => ?_⟩⟩
      rw [hrun] at hs hx
      exact C113_never_grows hr (fun i hi => (List.mem_append.1 hi).elim (hj i) (hk i)) hs ho hx hid
    · exact .inl ⟨x2, run h1 (a1.step a2), a3, a4⟩
  · exact .inl ⟨x2, a1.step a2, run a3 h2, a4⟩

section
open DemoChain (key)
open Client (moved onChain_moved)
open Accounts (demo_isMarket)
open RawBytes (grown)

example := fun m hm => C113_chain (m := m) (w1 := grown) (w2 := grown) onChain_moved (k := key 1)
  (by show key 1 ≠ key 6; decide +kernel) (demo_isMarket (by decide +kernel)) hm
  (.step .refl (.call (accounts := DemoChain.accounts) (by show ∀ k ∈ DemoChain.accounts, k ≠ key 6; decide +kernel)
    (DemoChain.after_step (d := DemoChain.newOrder .ask 7 12 3) (by decide +kernel)).choose_spec)) .refl
end
end Chain

/-! ### Cases that meet the hypotheses -/

example := C113_never_grows demo_reachBy (js := demoPlaces) (side := .ask) (o := demoWaiting) (o' := demoWaiting)
  (by decide +kernel) (by decide +kernel) (by decide +kernel) (by decide +kernel) rfl
example := C113_gone demo_reachBy (js := [.cancelOrder demoWaiting.id]) (ks := demoPlaces) (side := .ask) (o := demoWaiting)
  (by decide +kernel) (by decide +kernel) (by decide +kernel) (by decide +kernel) (by decide +kernel)
example : ∃ s m', demo.cancelOrder demoWaiting.id = .ok (s, m') ∧ ∀ s2 m2, (m'.run demoPlaces).cancelOrder demoWaiting.id ≠ .ok (s2, m2) := by
  have h : demo.cancelOrder demoWaiting.id = .ok (⟨none, demoWaiting.qty, demoWaiting.qty * demoWaiting.price / 2 ^ 32, 0⟩,
    demo.step (.cancelOrder demoWaiting.id)) := by decide +kernel
  exact ⟨_, _, h, C113_cancel_once demo_reachBy (by decide +kernel) h (by decide +kernel) (by decide +kernel)⟩

end AOB
