import Verif.Props.Chain
import Verif.Props.Queue
/-
No order, no event and no lamport can get stuck: every market can be emptied and closed. And what the stand-alone
program does with its return register.
-/
set_option linter.unusedSectionVars false

namespace AOB
namespace Chain

variable {C : Type} [CallbackInfo C] {m m' : Market C}

/-! ### C57 -/

/-- The instructions, run one after the other, all succeed and lead from `m` to `m'`. -/
inductive Succeed : Market C → List (Instr C) → Market C → Prop where
  | nil (m : Market C) : Succeed m [] m
  | cons {m m1 m2 : Market C} {i : Instr C} {is : List (Instr C)} {r : Option OrderSummary} :
      m.exec i = .ok (r, m1) → Succeed m1 is m2 → Succeed m (i :: is) m2

theorem Succeed.append {m1 m2 : Market C} {is js : List (Instr C)} (h : Succeed m is m1) (g : Succeed m1 js m2) :
    Succeed m (is ++ js) m2 := by
  induction h with
  | nil => exact g
  | cons e _ ih => exact .cons e (ih g)

theorem cancel_first (h : Reachable m) (hs : m.queue.header.seqNum ≤ 2 ^ 63) {side : Side} {o : Order C}
    {l : List (Order C)} (ho : resting m side = o :: l) : ∃ s m', m.cancelOrder o.id = .ok (s, m') ∧ o.id < 2 ^ 128 ∧
      resting m' side = l ∧ resting m' side.opposite = resting m side.opposite ∧ m'.queue = m.queue := by
  obtain ⟨a, ha⟩ := h.known
  have hmem : o ∈ a.orders side := by rw [← ha.rep.resting, ho]; simp
  obtain ⟨a', h1, h2⟩ := cancel1_some ha.inv (by rw [← ha.rep.seq]; exact hs) (RefMarket.mem_all.2 ⟨side, hmem⟩)
  have hr := cancelOrder_refines ha.rep (fun side o ho => (ha.inv.ok side o ho).worth) o.id
  have h3 : a.cancelOrder o.id = .ok (⟨none, o.qty, o.qty * o.price / 2 ^ 32, 0⟩, a') := by
    unfold RefMarket.cancelOrder; rw [h1]; rfl
  rw [h3] at hr
  obtain ⟨m', h4, h5⟩ := hr
  refine ⟨_, m', h4, SRep.id_lt (ha.rep.tree side) o (mem_prio.2 hmem), ?_, ?_, ?_⟩
  · rw [h5.resting, h2, ← ha.rep.resting, ho]
    have hs := ha.inv.sorted side
    rw [← ha.rep.resting, ho] at hs
    exact filter_ne_split (L := []) hs
  · rw [h5.resting, h2, ha.rep.resting, List.filter_eq_self]
    intro x hx
    rw [bne_iff_ne]
    exact Ne.symm (ha.inv.ids_ne hmem hx)
  · unfold Market.cancelOrder at h4
    obtain ⟨x, _, h4⟩ := bind_ok h4
    obtain ⟨_, rfl⟩ := Prod.mk.inj (Except.ok.inj h4)
    rfl

/-- The instructions that empty a market. -/
def Removes (i : Instr C) : Prop := (∃ id, i = .cancelOrder id ∧ id < 2 ^ 128) ∨ ∃ n, i = .consumeEvents n ∧ n < 2 ^ 64

theorem cancel_all (side : Side) : ∀ (l : List (Order C)) {m : Market C}, Reachable m →
    m.queue.header.seqNum ≤ 2 ^ 63 → resting m side = l →
    ∃ is m', Succeed m is m' ∧ Reachable m' ∧ (∀ i ∈ is, Removes i) ∧ resting m' side = [] ∧
      resting m' side.opposite = resting m side.opposite ∧ m'.queue = m.queue := by
  intro l
  induction l with
  | nil => intro m h _ hl; exact ⟨[], m, .nil m, h, fun _ hi => absurd hi List.not_mem_nil, hl, rfl, rfl⟩
  | cons o l ih =>
    intro m h hs hl
    obtain ⟨s, m1, h1, hid, h2, h3, h4⟩ := cancel_first h hs hl
    have he : m.exec (.cancelOrder o.id) = .ok (some s, m1) := by
      simp only [Market.exec]; rw [bind_of_ok h1]
    have hr : Reachable m1 := h.exec (i := .cancelOrder o.id) hid he
    obtain ⟨is, m2, g1, g2, g3, g4, g5, g6⟩ := ih hr (by rw [h4]; exact hs) h2
    refine ⟨_ :: is, m2, .cons he g1, g2, ?_, g4, g5.trans h3, g6.trans h4⟩
    intro i hi
    rcases List.mem_cons.1 hi with rfl | hi
    · exact .inl ⟨_, rfl, hid⟩
    · exact g3 i hi

theorem pending_length (h : Reachable m) : (pending m).length ≤ 2 ^ 62 := by
  obtain ⟨c, is, h⟩ := h
  obtain ⟨hk, _, hp⟩ := h.known
  rw [hk.rep.pending]
  have := hk.inv.evs
  have e : ((c.ref : RefMarket C).run is).capEvents = c.capEvents := hp.capEvents
  have := h.1.events.2
  omega

/-- C57. Every market that has given out fewer than `2^63` ids can be emptied by cancellations and consumption alone,
none of which fails: no order and no event can get stuck. -/
theorem C57_can_be_emptied (h : Reachable m) (hs : m.queue.header.seqNum ≤ 2 ^ 63) :
    ∃ is m', Succeed m is m' ∧ (∀ i ∈ is, Removes i) ∧ resting m' .bid = [] ∧ resting m' .ask = [] ∧
      pending m' = [] := by
  obtain ⟨is1, m1, a1, a2, a3, a4, a5, a6⟩ := cancel_all .bid _ h hs rfl
  obtain ⟨is2, m2, b1, b2, b3, b4, b5, b6⟩ := cancel_all .ask _ a2 (by rw [a6]; exact hs) rfl
  obtain ⟨m3, c1, c2, c3, _⟩ := C26_consume b2 (pending m2).length
  have he : m2.exec (.consumeEvents (pending m2).length) = .ok (none, m3) := by
    simp only [Market.exec]; rw [bind_of_ok c1]
  refine ⟨(is1 ++ is2) ++ [.consumeEvents (pending m2).length], m3, (a1.append b1).append (.cons he (.nil _)), ?_, ?_, ?_, ?_⟩
  · intro i hi
    rcases List.mem_append.1 hi with hi | hi
    · rcases List.mem_append.1 hi with hi | hi
      · exact a3 i hi
      · exact b3 i hi
    · obtain rfl := List.mem_singleton.1 hi
      have := pending_length b2
      exact .inr ⟨_, rfl, by omega⟩
  · rw [c3]; exact (b5 : resting m2 .bid = resting m1 .bid).trans a4
  · rw [c3]; exact b4
  · rw [c2, List.drop_length]

variable [Pod C] [Borsh C] {env : Env} {R : Pubkey → Prop} {w w' : World} {k : Pubkey}

/-- A list of calls of the program, all with the same accounts, all successful. -/
inductive Calls (env : Env) (C : Type) [Pod C] [CallbackInfo C] [Borsh C] (accounts : List Pubkey) :
    World → List Bytes → World → Prop where
  | nil (w : World) : Calls env C accounts w [] w
  | cons {w w1 w2 : World} {d : Bytes} {ds : List Bytes} {r : Option OrderSummary} :
      Processor.processInstruction env C w accounts d = .ok (r, w1) → Calls env C accounts w1 ds w2 →
      Calls env C accounts w (d :: ds) w2

theorem own_noReg (hw : OnChain env C R w) (hR : ¬ R k) (hM : IsMarket env w k) : ∀ j ∈ own w k, ¬ R j := by
  have hL := hw.inv.link k hR hM
  intro j hj
  simp only [own, List.mem_cons, List.not_mem_nil, or_false] at hj
  rcases hj with rfl | rfl | rfl | rfl
  · exact hR
  · exact hL.noRegQ
  · exact hL.noRegB
  · exact hL.noRegA

theorem calls_of_succeed {is : List (Instr C)} (h : Succeed m is m') (his : ∀ i ∈ is, Removes i) :
    ∀ {w : World}, OnChain env C R w → ¬ R k → IsMarket env w k → loadMarket C w k = .ok m →
    ∃ ds w', Calls env C (own w k) w ds w' ∧ OnChain env C R w' ∧ IsMarket env w' k ∧ stateAt w' k = stateAt w k ∧
      loadMarket C w' k = .ok m' ∧ ∀ j, (w' j).lamports = (w j).lamports := by
  induction h with
  | nil m => intro w hw hR hM hm; exact ⟨[], w, .nil w, hw, hM, rfl, hm, fun _ => rfl⟩
  | @cons m m1 m2 i is r he hs ih =>
    intro w hw hR hM hm
    have hd : ∃ (ix : Ix C) (d : Bytes), ix.instr = some i ∧ decodeIx C d = .ok ix ∧ ix ≠ .closeMarket := by
      rcases his i (List.mem_cons_self ..) with ⟨id, rfl, hid⟩ | ⟨n, rfl, hn⟩
      · exact ⟨.cancelOrder id, _, rfl, Wire.C45_decode (.cancelOrder id) hid, fun h => by cases h⟩
      · exact ⟨.consumeEvents n, _, rfl, Wire.C45_decode (.consumeEvents n) hn, fun h => by cases h⟩
    obtain ⟨ix, d, hi, hix, hnc⟩ := hd
    have hx := C55_exact hw hR hM hm hix hi []
    rw [he, List.append_nil] at hx
    obtain ⟨w1, g1, g2, g3, g4⟩ := hx
    have hw1 : OnChain env C R w1 := by
      obtain ⟨w0, a, b⟩ := hw
      exact ⟨w0, a, b.step (.call (own_noReg ⟨w0, a, b⟩ hR hM) g1)⟩
    obtain ⟨ds, w2, f1, f2, f3, f4, f5, f6⟩ := ih (fun i hi => his i (List.mem_cons_of_mem _ hi)) hw1 hR g2 g4
    have hown : own w1 k = own w k := by unfold own; rw [g3]
    rw [hown] at f1
    refine ⟨d :: ds, w2, .cons g1 f1, f2, f3, f4.trans g3, f5, fun j => (f6 j).trans ((Accounts.C41_frame g1).2.2 ?_ j)⟩
    rw [hix]
    intro h
    exact hnc (Except.ok.inj h)

/-- C57. On the chain: calls of the program with the market's own accounts (cancellations and consumption) and then
`close_market` succeed one after the other, whatever state the market is in. -/
theorem C57_can_be_closed (hw : OnChain env C R w) (hR : ¬ R k) (hM : IsMarket env w k)
    (hm : loadMarket C w k = .ok m) (hs : m.queue.header.seqNum ≤ 2 ^ 63) {t : Pubkey} (ht : t ∉ own w k)
    (hl : (w t).lamports + ((own w k).map fun j => (w j).lamports).sum < 2 ^ 64) :
    ∃ ds w1 w2, Calls env C (own w k) w ds w1 ∧
      Processor.processInstruction env C w1 (own w k ++ [t]) [4] = .ok (none, w2) := by
  obtain ⟨is, m', h1, h2, h3, h4, h5⟩ := C57_can_be_emptied (C54_reachable hw hR hM hm) hs
  obtain ⟨ds, w1, g1, g2, g3, g4, g5, g6⟩ := calls_of_succeed h1 h2 hw hR hM hm
  simp only [own, List.mem_cons, List.not_mem_nil, or_false, not_or] at ht
  simp only [own, List.map_cons, List.map_nil, List.sum_cons, List.sum_nil] at hl
  obtain ⟨w2, hc⟩ := Accounts.C37_close_succeeds g2 hR g3 g5 h3 h4 h5 (t := t) (by rw [g4]; exact ht)
    (by simp only [g6, g4]; omega)
  refine ⟨ds, w1, w2, g1, processInstruction_ok_iff.2 ⟨.closeMarket, rfl, .close (a := ⟨k, (stateAt w k).eventQueue, (stateAt w k).bids, (stateAt w k).asks⟩) (target := t) rfl ?_⟩⟩
  rw [g4] at hc
  exact hc

/-! ### C56 -/

/-- C56. The stand-alone program overwrites the first bytes of the last account, whatever that account is: its first
byte becomes 0 or 1. -/
theorem C56_register_overwritten {accounts : List Pubkey} {data : Bytes} {register : Pubkey}
    (h : entrypoint env C w accounts data = .ok w') (hreg : accounts.getLast? = some register) :
    (w' register).data[0]? = some 0 ∨ (w' register).data[0]? = some 1 := by
  obtain ⟨reg, r, w3, d, h1, h2, h3, rfl⟩ := entrypoint_ok_iff.1 h
  obtain rfl := Option.some.inj (hreg.symm.trans h1)
  rw [World.setData_data, if_pos rfl]
  unfold writeRegister at h3
  dsimp only at h3
  split at h3
  · obtain rfl := Except.ok.inj h3
    cases r with
    | none => left; rfl
    | some s => right; rfl
  · cases h3

/-- C56. So an account of a market that is used as return register is no account of a market any more. -/
theorem C56_register_destroys {accounts : List Pubkey} {data : Bytes} {register : Pubkey}
    (h : entrypoint env C w accounts data = .ok w') (hreg : accounts.getLast? = some register) :
    ¬ IsMarket env w' register ∧ ∀ j (m : Market C), loadMarket C w' j = .ok m → register ∉ own w' j := by
  have h0 := C56_register_overwritten h hreg
  have hn : ∀ v : UInt8, (w' register).data[0]? = some v → v = 0 ∨ v = 1 := by
    intro v hv
    rcases h0 with e | e <;> rw [hv] at e
    · exact .inl (Option.some.inj e)
    · exact .inr (Option.some.inj e)
  refine ⟨fun hM => ?_, fun j m hm hj => ?_⟩
  · rcases hn _ hM.byte0 with e | e <;> cases e
  · have hL := loadMarket_ok_iff.1 hm
    obtain ⟨b1, b2, b3, b4⟩ := hL.bytes
    simp only [own, List.mem_cons, List.not_mem_nil, or_false] at hj
    rcases hj with rfl | rfl | rfl | rfl
    · rcases hn _ b1 with e | e <;> cases e
    · rcases hn _ b2 with e | e <;> cases e
    · rcases hn _ b3 with e | e <;> cases e
    · rcases hn _ b4 with e | e <;> cases e

theorem field_zero_head {d : Bytes} {v : UInt8} (h : d[0]? = some v) (hf : field d 0 8 = v.toNat) :
    field (0 :: d.drop 1) 0 8 = 0 := by
  cases d with
  | nil => cases h
  | cons x l =>
    obtain rfl := Option.some.inj h
    unfold field at hf ⊢
    simp only [List.drop_zero, List.take_succ_cons, List.drop_succ_cons, ofLE] at hf ⊢
    simp only [show (0 : UInt8).toNat = 0 from rfl]
    omega

/-- C56. And nothing stops it: given any market on the chain, a `consume_events` of no event with the market account
as return register succeeds, and the market account is uninitialized afterwards, whatever rests in the book or
waits in the queue. -/
theorem C56_register_alias_witness (hw : OnChain env C R w) (hR : ¬ R k) (hM : IsMarket env w k)
    (hm : loadMarket C w k = .ok m) :
    ∃ w', entrypoint env C w (own w k ++ [k]) (2 :: List.replicate 8 0) = .ok w' ∧ ¬ IsMarket env w' k ∧
      field (w' k).data 0 8 = 0 := by
  obtain ⟨m1, c1, _⟩ := C26_consume (C54_reachable hw hR hM hm) 0
  have he : m.exec (.consumeEvents 0) = .ok (none, m1) := by
    simp only [Market.exec]; rw [bind_of_ok c1]
  have hd : decodeIx C (2 :: List.replicate 8 0) = .ok (.consumeEvents 0) :=
    Wire.C45_decode (.consumeEvents 0) (Nat.two_pow_pos 64)
  have hx := C55_exact hw hR hM hm hd rfl []
  rw [he, List.append_nil] at hx
  obtain ⟨w1, g1, g2, g3, g4⟩ := hx
  have hlen := g2.2.1
  have hw' : writeRegister (w1 k).data none = .ok (0 :: (w1 k).data.drop 1) := by
    unfold writeRegister
    dsimp only [encRegister]
    rw [if_pos (by rw [hlen]; decide)]
    rfl
  have hent : entrypoint env C w (own w k ++ [k]) (2 :: List.replicate 8 0) = .ok (w1.setData k (0 :: (w1 k).data.drop 1)) :=
    entrypoint_ok_iff.2 ⟨k, none, w1, _, by simp, by rw [List.dropLast_concat]; exact g1, hw', rfl⟩
  refine ⟨_, hent, (C56_register_destroys hent (by simp)).1, ?_⟩
  rw [World.setData_data, if_pos rfl]
  exact field_zero_head g2.byte0 g2.2.2

/-! ### Concrete cases -/

section
open DemoChain (key w4 onChain_w4)

/-- C57: the demo market with an ask resting and a fill waiting. -/
example : ∃ ds w1 w2, Calls DemoChain.env Bytes32 (own w4 (key 1)) w4 ds w1 ∧
    Processor.processInstruction DemoChain.env Bytes32 w1 (own w4 (key 1) ++ [key 5]) [4] = .ok (none, w2) := by
  obtain ⟨m, hm⟩ := Accounts.demo_load (w := w4) (k := key 1) (by decide +kernel)
  refine C57_can_be_closed onChain_w4 (by show key 1 ≠ key 6; decide +kernel)
    (Accounts.demo_isMarket (by decide +kernel)) hm ?_ (by decide +kernel) (by decide +kernel)
  have : ∀ x, loadMarket Bytes32 w4 (key 1) = .ok x → (DemoChain.marketAt w4 (key 1)).map
      (fun m => decide (m.queue.header.seqNum ≤ 2 ^ 63)) = some true → x.queue.header.seqNum ≤ 2 ^ 63 := by
    intro x hx h
    unfold DemoChain.marketAt at h
    rw [hx] at h
    exact of_decide_eq_true (Option.some.inj h)
  exact this m hm (by decide +kernel)

/-- C57: the very calls. -/
example : (DemoChain.w8 (key 1)).data[0]? = some 132 := by decide +kernel

/-- C56: the demo market is destroyed, its orders and events being there still. -/
example : ∃ w', entrypoint DemoChain.env Bytes32 w4 (own w4 (key 1) ++ [key 1]) (2 :: List.replicate 8 0) = .ok w' ∧
    ¬ IsMarket DemoChain.env w' (key 1) ∧ field (w' (key 1)).data 0 8 = 0 := by
  obtain ⟨m, hm⟩ := Accounts.demo_load (w := w4) (k := key 1) (by decide +kernel)
  exact C56_register_alias_witness onChain_w4 (by show key 1 ≠ key 6; decide +kernel)
    (Accounts.demo_isMarket (by decide +kernel)) hm

/-! Each theorem applied. -/

theorem demo_entered : entrypoint DemoChain.env Bytes32 w4 (DemoChain.accounts' ++ [key 6]) (DemoChain.newOrder .bid 4 9 3) =
    .ok (DemoChain.afterEntry w4 (DemoChain.accounts' ++ [key 6]) (DemoChain.newOrder .bid 4 9 3)) :=
  DemoChain.afterEntry_step (by decide +kernel)

example := C56_register_overwritten (register := key 6) demo_entered (by decide +kernel)
example := C56_register_destroys (register := key 6) demo_entered (by decide +kernel)
example := C57_can_be_emptied demo_reachable (by decide +kernel)

end

end Chain
end AOB
