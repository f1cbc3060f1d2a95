import Verif.Props.Accounts
import Verif.Props.Cancel
/-
The program on the chain does to a market exactly what the market of the other properties does: every market on the
chain is reachable, every step of the chain is a step of the market or none, and a call with the market's own
accounts returns what the market returns.
-/
set_option linter.unusedSectionVars false

namespace AOB
namespace Chain

variable {C : Type} [Pod C] [CallbackInfo C] [Borsh C] {env : Env} {R : Pubkey → Prop} {w w' : World}
  {k : Pubkey} {m m' : Market C} {accounts : List Pubkey} {data : Bytes} {r : Option OrderSummary} {ix : Ix C}
  {i : Instr C}

/-! ### C54 -/

/-- C54. Every market found on the chain is a market some history of instructions leads to, whatever happened on the
chain before. So what is proved of reachable markets holds of every market on the chain. -/
theorem C54_reachable (hw : OnChain env C R w) (hR : ¬ R k) (hM : IsMarket env w k) (hm : loadMarket C w k = .ok m) :
    Reachable m := hw.inv.reach k hR hM m (loadMarket_ok_iff.1 hm)

/-- What a step of the chain may do to the market `m` at `k`: leave it alone, run one instruction on it, or close it
when it is empty. -/
inductive Did (env : Env) (w' : World) (k : Pubkey) (m : Market C) : Prop where
  | nothing : IsMarket env w' k → loadMarket C w' k = .ok m → Did env w' k m
  | ran {i : Instr C} {r : Option OrderSummary} {m' : Market C} : i.Fits → m.exec i = .ok (r, m') →
      IsMarket env w' k → loadMarket C w' k = .ok m' → Did env w' k m
  | closed : resting m .bid = [] → resting m .ask = [] → pending m = [] → (w' k).data[0]? = some 132 →
      Did env w' k m

theorem ran_did (hw : OnChain env C R w) (hRa : ∀ j ∈ accounts, ¬ R j) (hR : ¬ R k) (hM : IsMarket env w k)
    (hm : loadMarket C w k = .ok m) (h : Ran env w accounts ix r w') : Did env w' k m := by
  have hL := loadMarket_ok_iff.1 hm
  by_cases hk : accounts.head? = some k
  · rcases h.same hM hk hL with ⟨i, m', _, h2, h3, h4⟩ | ⟨rfl, a, t, hp, rfl, hc, rfl⟩
    · exact .ran h2 h3 ⟨by rw [(h.frame k).1]; exact hM.1, h4.len, h4.tag⟩ (loadMarket_ok_iff.2 h4)
    · have hr := C54_reachable hw hR hM hm
      obtain ⟨h1, h2⟩ := (Accounts.counts_empty hr).2 ⟨hc.bids, hc.asks⟩
      refine .closed h1 h2 ((Accounts.pending_empty hr).2 hc.queue) ?_
      rw [(closed_data hc).1]; rfl
  · obtain ⟨e1, e2, e3, e4⟩ := hw.inv.ran_other hRa h hR hM hk
    refine .nothing ⟨by rw [(h.frame k).1]; exact hM.1, by rw [e1]; exact hM.2.1, by rw [e1]; exact hM.2.2⟩ ?_
    rw [loadMarket_congr e1 e2 e3 e4, hm]

theorem Did.congr {w'' : World} (h : Did env w' k m) (e : w'' k = w' k)
    (e' : ∀ m' : Market C, IsMarket env w' k → loadMarket C w' k = .ok m' → loadMarket C w'' k = .ok m') :
    Did env w'' k m := by
  have hi : IsMarket env w' k → IsMarket env w'' k := fun h => by unfold IsMarket; rw [e]; exact h
  cases h with
  | nothing h1 h2 => exact .nothing (hi h1) (e' _ h1 h2)
  | ran h1 h2 h3 h4 => exact .ran h1 h2 (hi h3) (e' _ h3 h4)
  | closed h1 h2 h3 h4 => exact .closed h1 h2 h3 (by rw [e]; exact h4)

/-- C54. Every step of the chain does to every market on it one of these: nothing, one successful instruction of the
market, or closing it, empty. -/
theorem C54_step (hw : OnChain env C R w) (hR : ¬ R k) (hM : IsMarket env w k) (hm : loadMarket C w k = .ok m)
    (hs : ChainStep env C R w w') : Did env w' k m := by
  cases hs with
  | @call accounts data r g1 g2 =>
    obtain ⟨ix, _, h⟩ := processInstruction_ok_iff.1 g2
    exact ran_did hw g1 hR hM hm h
  | @entry accounts data g1 g2 g3 =>
    obtain ⟨reg, r, w3, d, h1, h2, h3, rfl⟩ := entrypoint_ok_iff.1 g3
    obtain ⟨ix, _, h⟩ := processInstruction_ok_iff.1 h2
    have hd := ran_did hw g1 hR hM hm h
    have hreg := g2 _ h1
    have hw3 : OnChain env C R w3 := by
      obtain ⟨w0, a1, a2⟩ := hw
      exact ⟨w0, a1, a2.step (.call g1 h2)⟩
    have hne : ∀ x, ¬ R x → (w3.setData reg d) x = w3 x := fun x hx => by
      unfold World.setData; rw [if_neg (by rintro rfl; exact hx hreg)]
    refine hd.congr (hne k hR) ?_
    intro m' hM' hm'
    have hL := hw3.inv.link k hR hM'
    rw [loadMarket_congr (by rw [hne _ hR]) (by rw [hne _ hL.noRegQ]) (by rw [hne _ hL.noRegB])
      (by rw [hne _ hL.noRegA]), hm']
  | elsewhere he =>
    have hL := hw.inv.link k hR hM
    have key : ∀ x, (w x).owner = env.programId → 0 < (w x).lamports →
        (w' x).owner = (w x).owner ∧ (w' x).data = (w x).data := by
      intro x ho hl
      rcases he x with ⟨a, b, _⟩ | ⟨a | a, _⟩
      · exact ⟨a, b⟩
      · exact absurd ho a
      · omega
    obtain ⟨o1, d1⟩ := key k hM.1 hL.live
    obtain ⟨_, d2⟩ := key _ hL.ownerQ hL.liveQ
    obtain ⟨_, d3⟩ := key _ hL.ownerB hL.liveB
    obtain ⟨_, d4⟩ := key _ hL.ownerA hL.liveA
    exact .nothing ⟨o1.trans hM.1, by rw [d1]; exact hM.2.1, by rw [d1]; exact hM.2.2⟩
      (by rw [loadMarket_congr d1 d2 d3 d4, hm])

/-- C54. Along every history of the chain, a market goes through a history of its own, of instructions that all
succeeded, until it is closed, empty. -/
theorem C54_run (hw : OnChain env C R w) (hR : ¬ R k) (hM : IsMarket env w k) (hm : loadMarket C w k = .ok m)
    (h : ChainRun env C R w w') :
    ∃ is : List (Instr C), (∀ i ∈ is, i.Fits) ∧ ((IsMarket env w' k ∧ loadMarket C w' k = .ok (m.run is)) ∨
      ∃ w1 w2, ChainRun env C R w w1 ∧ ChainStep env C R w1 w2 ∧ ChainRun env C R w2 w' ∧
        loadMarket C w1 k = .ok (m.run is) ∧ resting (m.run is) .bid = [] ∧ resting (m.run is) .ask = [] ∧
        pending (m.run is) = [] ∧ (w2 k).data[0]? = some 132) := by
  induction h with
  | refl => exact ⟨[], fun _ h => absurd h List.not_mem_nil, .inl ⟨hM, hm⟩⟩
  | @step w1 w2 h1 h2 ih =>
    obtain ⟨is, hf, hcase⟩ := ih
    rcases hcase with ⟨hM1, hm1⟩ | ⟨x1, x2, a1, a2, a3, rest⟩
    · have hw1 : OnChain env C R w1 := by
        obtain ⟨w0, b1, b2⟩ := hw
        refine ⟨w0, b1, ?_⟩
        clear hM1 hm1 h2
        induction h1 with
        | refl => exact b2
        | step _ g ih => exact ih.step g
      cases C54_step hw1 hR hM1 hm1 h2 with
      | nothing g1 g2 => exact ⟨is, hf, .inl ⟨g1, g2⟩⟩
      | @ran i r m' g1 g2 g3 g4 =>
        refine ⟨is ++ [i], ?_, .inl ⟨g3, ?_⟩⟩
        · intro x hx
          rcases List.mem_append.1 hx with hx | hx
          · exact hf x hx
          · obtain rfl := List.mem_singleton.1 hx; exact g1
        · rw [g4]
          unfold Market.run
          rw [List.foldl_append]
          show _ = Except.ok ((m.run is).step i)
          unfold Market.step
          rw [g2]
      | closed g1 g2 g3 g4 => exact ⟨is, hf, .inr ⟨w1, w2, h1, h2, .refl, hm1, g1, g2, g3, g4⟩⟩
    · exact ⟨is, hf, .inr ⟨x1, x2, a1, a2, a3.step h2, rest⟩⟩

/-- C54. A market appears on the chain only as an empty market fresh from `create_market`. -/
theorem C54_appears (hw : OnChain env C R w) (hno : ¬ IsMarket env w k) (hRa : ∀ j ∈ accounts, ¬ R j)
    (h : Processor.processInstruction env C w accounts data = .ok (r, w'))
    (hM : IsMarket env w' k) (hm : loadMarket C w' k = .ok m) :
    (∃ p, decodeIx C data = .ok (.createMarket p) ∧ accounts[0]? = some k ∧ m.minBaseOrderSize = p.minBaseOrderSize ∧
      m.tickSize = p.tickSize) ∧ (∃ c, ReachBy c [] m) ∧
      resting m .bid = [] ∧ resting m .ask = [] ∧ pending m = [] := by
  obtain ⟨ix, hix, hr⟩ := processInstruction_ok_iff.1 h
  have h128 := hM.byte0
  have hsame : (w' k).data ≠ (w k).data := fun e => hno ⟨(hr.frame k).1 ▸ hM.1, e ▸ hM.2.1, e ▸ hM.2.2⟩
  have hz : (w k).data[0]? = some 0 := by
    have hb := hr.byte0 k
    rw [h128] at hb
    rcases hr.touch k with e | e | ⟨j, _, hMj, rfl | ⟨_, e⟩ | ⟨_, e⟩ | ⟨_, e⟩⟩
    · exact absurd e hsame
    · exact e
    · exact absurd hMj hno
    all_goals
      rw [e] at hb
      rcases hb with e | e | ⟨_, e⟩ <;> cases e
  rcases hr.auth with ⟨p, x1, x2, x3, x4, rest, rfl, rfl, hc⟩ | ⟨j, rest, rfl, hn, hMj, _⟩
  · cases hr with
    | @create a p _ f1 f2 hp hx =>
      obtain ⟨_, rfl⟩ := createMarket_ok_iff.1 hx
      obtain rfl := Except.ok.inj hp
      obtain ⟨d1, d2, d3, d4, d5⟩ := created_data hc
      dsimp only at d1 d2 d3 d4 d5
      have hk : k = x1 := by
        by_cases e1 : k = x1
        · exact e1
        by_cases e2 : k = x2
        · rw [e2, d2] at h128; cases h128
        by_cases e3 : k = x3
        · rw [e3, d3, List.getElem?_set_self (byte0_length hc.tagB)] at h128; cases h128
        by_cases e4 : k = x4
        · rw [e4, d4, List.getElem?_set_self (byte0_length hc.tagA)] at h128; cases h128
        · exact absurd (by rw [d5 k e1 e2 e3 e4]) hsame
      subst hk
      have hi := hw.inv
      have zQ : (w x2).data[0]? = some 0 := byte0_of_field (by have := hc.sizeQ; dsimp only at this; omega) hc.tagQ
      have fQ := hi.fresh x2 (hRa _ (by simp)) hc.ownerQ zQ
      have fB := hi.fresh x3 (hRa _ (by simp)) hc.ownerB hc.tagB
      have fA := hi.fresh x4 (hRa _ (by simp)) hc.ownerA hc.tagA
      have hm' := loadMarket_ok_iff.1 hm
      have hs := stateAt_created hc f1 f2
      dsimp only at hs
      have hmv := loaded_created hc f1 f2 fB fA fQ hm'
      have hreach : ReachBy (newConfig C w ⟨k, x2, x3, x4⟩ p) [] m :=
        ⟨newConfig_valid hc fB fA fQ, fun _ h => absurd h List.not_mem_nil, _, hmv⟩
      have hr : Reachable m := ⟨_, _, hreach⟩
      have hz : m.book.bids.header.leafCount = 0 ∧ m.book.asks.header.leafCount = 0 ∧ m.queue.header.count = 0 := by
        rw [hmv]; exact ⟨rfl, rfl, rfl⟩
      obtain ⟨r1, r2⟩ := (Accounts.counts_empty hr).2 ⟨hz.1, hz.2.1⟩
      exact ⟨⟨p, hix, rfl, by rw [hm'.minBase, hs], by rw [hm'.tick, hs]⟩, ⟨_, hreach⟩, r1, r2,
        (Accounts.pending_empty hr).2 hz.2.2⟩
  · exfalso
    have hb := hr.byte0 k
    rw [h128, hz] at hb
    rcases hb with e | e | ⟨⟨p, rfl⟩, _⟩
    · cases e
    · cases e
    · exact hn p rfl

/-! ### C55 -/

/-- The accounts of the market at `k`, in the order the instructions take them. -/
def own (w : World) (k : Pubkey) : List Pubkey :=
  [k, (stateAt w k).eventQueue, (stateAt w k).bids, (stateAt w k).asks]

theorem exact_store (hw : OnChain env C R w) (hR : ¬ R k) (hM : IsMarket env w k) (hm : loadMarket C w k = .ok m)
    (hix : decodeIx C data = .ok ix) (hi : ix.instr = some i) (rest : List Pubkey) :
    Processor.processInstruction env C w (own w k ++ rest) data = (m.exec i).map fun x => (x.1, store w k x.2) := by
  have hL := loadMarket_ok_iff.1 hm
  have hk := hw.inv.link k hR hM
  have ha : Auth env w ⟨k, (stateAt w k).eventQueue, (stateAt w k).bids, (stateAt w k).asks⟩ :=
    ⟨hM.1, hk.ownerQ, hk.ownerB, hk.ownerA, rfl, rfl, rfl⟩
  have hmap : ∀ {α : Type} {x : Res α} {f : α → Ix C}, x.map f = .ok ix → ∃ y, x = .ok y ∧ f y = ix := by
    intro α x f h; cases x with
    | error e => cases h
    | ok y => exact ⟨y, rfl, Except.ok.inj h⟩
  unfold decodeIx at hix
  obtain ⟨t, ht, hd⟩ := bind_ok hix
  unfold Processor.processInstruction
  rw [bind_of_ok ht]
  unfold decodeParams at hd
  have hparse : BookAccounts.parse (own w k ++ rest) =
    .ok ⟨k, (stateAt w k).eventQueue, (stateAt w k).bids, (stateAt w k).asks⟩ := rfl
  cases t with
  | createMarket => obtain ⟨p, hp, rfl⟩ := hmap hd; cases hi
  | closeMarket => obtain rfl := Except.ok.inj hd; cases hi
  | newOrder =>
    obtain ⟨p, hp, rfl⟩ := hmap hd
    obtain rfl := Option.some.inj hi
    dsimp only
    rw [bind_of_ok hparse, bind_of_ok hp, processNewOrder_eq ha hL]
    simp only [Market.exec]
    cases m.newOrder p <;> rfl
  | cancelOrder =>
    obtain ⟨p, hp, rfl⟩ := hmap hd
    obtain rfl := Option.some.inj hi
    dsimp only
    rw [bind_of_ok hparse, bind_of_ok hp, processCancel_eq ha hL.book]
    simp only [Market.exec, Market.cancelOrder]
    cases Market.cancelIn m.book p with
    | error e => rfl
    | ok x => simp only [Except.map, bind, Except.bind]; rw [hL.storeBook_eq]
  | massCancelOrders =>
    obtain ⟨p, hp, rfl⟩ := hmap hd
    obtain rfl := Option.some.inj hi
    dsimp only
    rw [bind_of_ok hparse, bind_of_ok hp, processMassCancel_eq ha hL.book]
    simp only [Market.exec, Market.massCancelOrders]
    cases Market.massCancelLoop p 0 0 m.book with
    | error e => rfl
    | ok x => simp only [Except.map, bind, Except.bind]; rw [hL.storeBook_eq]
  | consumeEvents =>
    obtain ⟨p, hp, rfl⟩ := hmap hd
    obtain rfl := Option.some.inj hi
    have hpc : parseConsume (own w k ++ rest) = .ok (k, (stateAt w k).eventQueue) := rfl
    dsimp only
    rw [bind_of_ok hpc]
    dsimp only
    rw [bind_of_ok hp, processConsume_eq hM.1 hk.ownerQ rfl hL.events]
    simp only [Market.exec, Market.consumeEvents]
    cases m.queue.popN p with
    | error e => rfl
    | ok x => simp only [Except.map, bind, Except.bind]; rw [hL.storeQueue_eq]

/-- C55. A call with the accounts of the market at `k` returns exactly what the market's instruction returns, the same
error if it fails; and if it succeeds, the market found in the accounts afterwards is the market it leads to. -/
theorem C55_exact (hw : OnChain env C R w) (hR : ¬ R k) (hM : IsMarket env w k) (hm : loadMarket C w k = .ok m)
    (hix : decodeIx C data = .ok ix) (hi : ix.instr = some i) (rest : List Pubkey) :
    match m.exec i with
    | .error e => Processor.processInstruction env C w (own w k ++ rest) data = .error e
    | .ok (r, m') => ∃ w', Processor.processInstruction env C w (own w k ++ rest) data = .ok (r, w') ∧
        IsMarket env w' k ∧ stateAt w' k = stateAt w k ∧ loadMarket C w' k = .ok m' := by
  have h := exact_store hw hR hM hm hix hi rest
  cases he : m.exec i with
  | error e => dsimp only; rw [h, he]; rfl
  | ok x =>
    obtain ⟨r, m'⟩ := x
    dsimp only
    rw [he] at h
    refine ⟨_, h, ?_⟩
    obtain ⟨ix', hx, hr⟩ := processInstruction_ok_iff.1 h
    obtain rfl := Except.ok.inj (hix.symm.trans hx)
    rcases hr.same hM rfl (loadMarket_ok_iff.1 hm) with ⟨i', m1, h1, h2, h3, h4⟩ | ⟨rfl, _⟩
    · obtain rfl := Option.some.inj (hi.symm.trans h1)
      rw [he] at h3
      obtain ⟨_, rfl⟩ := Prod.mk.inj (Except.ok.inj h3)
      refine ⟨⟨by rw [(hr.frame k).1]; exact hM.1, h4.len, h4.tag⟩, ?_, loadMarket_ok_iff.2 h4⟩
      exact stateAt_congr (by rw [((loadMarket_ok_iff.1 hm).store_data m').1])
    · cases hi

/-! ### Concrete cases -/

section
open DemoChain (key w3 w4 onChain_w3 onChain_w4)

/-- The first market of the demo, with an ask resting and a fill waiting, is reachable, and an order for it behaves as
on the market read from its accounts; a cancellation of an id it does not know fails alike. -/
example : ∃ m : Market Bytes32, loadMarket Bytes32 w4 (key 1) = .ok m ∧ Reachable m ∧ (resting m .ask).length = 1 ∧
    (pending m).length = 1 := by
  obtain ⟨m, hm⟩ := Accounts.demo_load (w := w4) (k := key 1) (by decide +kernel)
  refine ⟨m, hm, C54_reachable onChain_w4 (by show key 1 ≠ key 6; decide +kernel)
    (Accounts.demo_isMarket (by decide +kernel)) hm, ?_⟩
  have : ∀ x, loadMarket Bytes32 w4 (key 1) = .ok x → (DemoChain.marketAt w4 (key 1)).map
      (fun m => decide ((resting m .ask).length = 1 ∧ (pending m).length = 1)) = some true → (resting x .ask).length = 1 ∧
      (pending x).length = 1 := by
    intro x hx h
    unfold DemoChain.marketAt at h
    rw [hx] at h
    exact of_decide_eq_true (Option.some.inj h)
  exact this m hm (by decide +kernel)

example (m : Market Bytes32) (hm : loadMarket Bytes32 w3 (key 1) = .ok m) :=
  C55_exact onChain_w3 (k := key 1) (by show key 1 ≠ key 6; decide +kernel) (Accounts.demo_isMarket (by decide +kernel)) hm
    (Wire.C45_decode (.newOrder (DemoChain.order .bid 3 10 2)) (by unfold Wire.InRange; decide +kernel)) rfl []

example : own w3 (key 1) = DemoChain.accounts := by decide +kernel

/-! Each theorem applied. -/

theorem demo_chainStep : ChainStep DemoChain.env Bytes32 DemoChain.R w3 w4 :=
  .call (by show ∀ k ∈ DemoChain.accounts, k ≠ key 6; decide +kernel) Accounts.demo_w4.choose_spec

theorem demo_market : ∃ m, loadMarket Bytes32 w3 (key 1) = .ok m := Accounts.demo_load (by decide +kernel)

example := C54_step onChain_w3 Accounts.demo_notR (Accounts.demo_isMarket (by decide +kernel)) demo_market.choose_spec
  demo_chainStep
example := C54_run onChain_w3 Accounts.demo_notR (Accounts.demo_isMarket (by decide +kernel)) demo_market.choose_spec
  (.step .refl demo_chainStep)

/-- `C54_appears`: the second market, in `w2`. -/
example := C54_appears (R := DemoChain.R) (k := key 11) DemoChain.onChain_w1
  (fun h => absurd h.2.2 (by decide +kernel)) (by show ∀ k ∈ DemoChain.accounts', k ≠ key 6; decide +kernel)
  (DemoChain.after_step (w := DemoChain.w1) (l := DemoChain.accounts') (d := DemoChain.create) (by decide +kernel)).choose_spec
  (Accounts.demo_isMarket (by decide +kernel))
  (Accounts.demo_load (w := DemoChain.after DemoChain.w1 DemoChain.accounts' DemoChain.create) (k := key 11)
    (by decide +kernel)).choose_spec

end

end Chain
end AOB
