import Verif.Props.Chain
/-
C111: a market keeps its accounts. C112: they are rent exempt.
-/
namespace AOB
namespace Chain
variable {C : Type} [CallbackInfo C] [Pod C] [Borsh C] {env : Env} {R : Pubkey → Prop} {w w' : World} {k : Pubkey}
  {accounts : List Pubkey} {ix : Ix C} {r : Option OrderSummary}

/-- The market at `k` has the same account, byte by byte, and its four accounts have the same owner and size and no less
lamports. -/
def Keeps (w w' : World) (k : Pubkey) : Prop :=
  (w' k).data = (w k).data ∧ ∀ j ∈ own w k, (w' j).owner = (w j).owner ∧ (w' j).data.length = (w j).data.length ∧
    (w j).lamports ≤ (w' j).lamports

theorem Keeps.refl (w : World) (k : Pubkey) : Keeps w w k := ⟨rfl, fun _ _ => ⟨rfl, rfl, Nat.le_refl _⟩⟩

theorem Keeps.own {w w' : World} {k : Pubkey} (h : Keeps w w' k) : own w' k = own w k := by
  unfold Chain.own
  rw [stateAt_congr h.1]

theorem Keeps.isMarket {w w' : World} {k : Pubkey} (h : Keeps w w' k) (hM : IsMarket env w k) : IsMarket env w' k :=
  ⟨(h.2 k (by simp [Chain.own])).1.trans hM.1, h.1 ▸ hM.2.1, h.1 ▸ hM.2.2⟩

theorem Keeps.trans {w w' w'' : World} {k : Pubkey} (h : Keeps w w' k) (g : Keeps w' w'' k) : Keeps w w'' k := by
  refine ⟨g.1.trans h.1, fun j hj => ?_⟩
  obtain ⟨a1, a2, a3⟩ := h.2 j hj
  obtain ⟨b1, b2, b3⟩ := g.2 j (by rw [h.own]; exact hj)
  exact ⟨b1.trans a1, b2.trans a2, Nat.le_trans a3 b3⟩

omit [Borsh C] in
/-- Only closing changes the account of a market. -/
theorem ran_market (h : Ran env w accounts ix r w') (hM : IsMarket env w k) (hk : accounts.head? = some k)
    (hc : ix ≠ .closeMarket) : (w' k).data = (w k).data := by
  have hhead : ∀ {a : BookAccounts}, BookAccounts.parse accounts = .ok a → a.market = k := by
    intro a ha
    unfold BookAccounts.parse at ha
    split at ha
    · obtain rfl := Except.ok.inj ha; exact Option.some.inj hk
    · cases ha
  have hbook : ∀ {b : OrderBook C} (b' : OrderBook C), LoadedBook w k b → (storeBook w k b' k).data = (w k).data := by
    intro b b' hb
    obtain ⟨d1, d2, _⟩ := hb.distinct
    rw [storeBook_data, if_neg d2, if_neg d1]
  cases h with
  | @create a p _ f1 f2 hp hx =>
    obtain ⟨hc, rfl⟩ := createMarket_ok_iff.1 hx
    obtain rfl := hhead hp
    have := hc.tagM
    rw [hM.2.2] at this
    cases this
  | @newOrder a p sm _ f hp hx =>
    obtain ⟨ha, m1, m', hm1, he, rfl⟩ := processNewOrder_ok hx
    obtain rfl := hhead hp
    exact (hm1.store_data m').1
  | @consume j0 q0 n _ f hp hx =>
    obtain ⟨o1, _, _, q, q', hq, he, rfl⟩ := processConsume_ok hx
    have hj : j0 = k := by
      unfold parseConsume at hp
      split at hp
      · obtain ⟨rfl, rfl⟩ := Prod.mk.inj (Except.ok.inj hp); exact Option.some.inj hk
      · cases hp
    subst hj
    rw [storeQueue_data, if_neg hq.distinct]
  | @cancel a id sm _ f hp hx =>
    obtain ⟨ha, b, b', hb, he, rfl⟩ := processCancel_ok hx
    obtain rfl := hhead hp
    exact hbook b' hb
  | @close a t _ hp hx => exact absurd rfl hc
  | @massCancel a ids sm _ f1 f2 hp hx =>
    obtain ⟨ha, b, b', x, y, hb, he, rfl, rfl⟩ := processMassCancel_ok hx
    obtain rfl := hhead hp
    exact hbook b' hb

theorem ran_keeps (hw : OnChain env C R w) (hRa : ∀ j ∈ accounts, ¬ R j) (hR : ¬ R k) (hM : IsMarket env w k)
    (h : Ran env w accounts ix r w') : (w' k).data[0]? = some 132 ∨ Keeps w w' k := by
  by_cases hc : ix = .closeMarket
  · subst hc
    cases h with
    | @close a t _ hp hx =>
      have h := Ran.close (C := C) hp hx
      obtain ⟨⟨m1, hcc⟩, rfl⟩ := closeMarket_ok_iff.1 hx
      have ha : accounts.head? = some a.market := by
        unfold parseClose at hp
        split at hp
        · obtain ⟨rfl, rfl⟩ := Prod.mk.inj (Except.ok.inj hp); rfl
        · cases hp
      by_cases hk : a.market = k
      · left
        rw [← hk, (closed_data hcc).1]; rfl
      · right
        have hn : accounts.head? ≠ some k := by rw [ha]; exact fun e => hk (Option.some.inj e)
        refine ⟨(hw.inv.ran_other hRa h hR hM hn).1, fun j hj => ⟨(h.frame j).1, (h.frame j).2.1, ?_⟩⟩
        have hMa : IsMarket env w a.market := ⟨hcc.owner, hcc.loaded.len, hcc.loaded.tag⟩
        have hd := Accounts.C41_disjoint hw (j := k) (k := a.market) hR (hRa _ (List.mem_of_mem_head? ha)) hM hMa
          (Ne.symm hk) j hj
        rw [← hcc.keyQ, ← hcc.keyB, ← hcc.keyA] at hd
        simp only [List.mem_cons, List.not_mem_nil, or_false, not_or] at hd
        exact (closed_other w a t hd.1 hd.2.1 hd.2.2.1 hd.2.2.2).2.2
  · right
    refine ⟨?_, fun j _ => ⟨(h.frame j).1, (h.frame j).2.1, by rw [(h.frame j).2.2.1 hc]⟩⟩
    by_cases hk : accounts.head? = some k
    · exact ran_market h hM hk hc
    · exact (hw.inv.ran_other hRa h hR hM hk).1

/-- C111: one step of the chain closes a market or leaves its account as it is, and its four accounts with their owner,
their size and at least the lamports they had. -/
theorem C111_step (hw : OnChain env C R w) (hR : ¬ R k) (hM : IsMarket env w k)
    (hs : ChainStep env C R w w') : (w' k).data[0]? = some 132 ∨ Keeps w w' k := by
  have hlink := hw.inv.link k hR hM
  cases hs with
  | @call accounts data r g1 g2 =>
    obtain ⟨ix, _, h⟩ := processInstruction_ok_iff.1 g2
    exact ran_keeps hw g1 hR hM h
  | @entry accounts data g1 g2 g3 =>
    obtain ⟨reg, r, w3, d, h1, h2, h3, rfl⟩ := entrypoint_ok_iff.1 g3
    obtain ⟨ix, _, h⟩ := processInstruction_ok_iff.1 h2
    have hreg := g2 _ h1
    have hne : ∀ x, ¬ R x → (w3.setData reg d) x = w3 x := fun x hx => by
      unfold World.setData; rw [if_neg (by rintro rfl; exact hx hreg)]
    rw [hne k hR]
    refine (ran_keeps hw g1 hR hM h).imp_right fun hk => ⟨by rw [hne k hR]; exact hk.1, fun j hj => ?_⟩
    rw [hne j (by
      simp only [own, List.mem_cons, List.not_mem_nil, or_false] at hj
      rcases hj with rfl | rfl | rfl | rfl
      · exact hR
      · exact hlink.noRegQ
      · exact hlink.noRegB
      · exact hlink.noRegA)]
    exact hk.2 j hj
  | elsewhere he =>
    have key : ∀ x, (w x).owner = env.programId → 0 < (w x).lamports →
        (w' x).owner = (w x).owner ∧ (w' x).data = (w x).data ∧ (w x).lamports ≤ (w' x).lamports := by
      intro x ho hl
      rcases he x with h | ⟨a | a, _⟩
      · exact h
      · exact absurd ho a
      · omega
    right
    refine ⟨(key k hM.1 hlink.live).2.1, fun j hj => ?_⟩
    have : (w j).owner = env.programId ∧ 0 < (w j).lamports := by
      simp only [own, List.mem_cons, List.not_mem_nil, or_false] at hj
      rcases hj with rfl | rfl | rfl | rfl
      · exact ⟨hM.1, hlink.live⟩
      · exact ⟨hlink.ownerQ, hlink.liveQ⟩
      · exact ⟨hlink.ownerB, hlink.liveB⟩
      · exact ⟨hlink.ownerA, hlink.liveA⟩
    obtain ⟨h1, h2, h3⟩ := key j this.1 this.2
    exact ⟨h1, by rw [h2], h3⟩

theorem OnChain.run (hw : OnChain env C R w) (h : ChainRun env C R w w') : OnChain env C R w' := by
  obtain ⟨w0, a, b⟩ := hw
  refine ⟨w0, a, ?_⟩
  induction h with
  | refl => exact b
  | step _ hs ih => exact ih.step hs

/-- C111: along every history of the chain, until the market is closed. -/
theorem C111_run (hw : OnChain env C R w) (hR : ¬ R k) (hM : IsMarket env w k)
    (h : ChainRun env C R w w') :
    (∃ w1, ChainRun env C R w w1 ∧ ChainRun env C R w1 w' ∧ (w1 k).data[0]? = some 132) ∨ (IsMarket env w' k ∧ Keeps w w' k) := by
  induction h with
  | refl => exact .inr ⟨hM, Keeps.refl w k⟩
  | @step w1 w2 h1 h2 ih =>
    rcases ih with ⟨x, a1, a2, a3⟩ | ⟨hM1, hk⟩
    · exact .inl ⟨x, a1, a2.step h2, a3⟩
    · rcases C111_step (OnChain.run hw h1) hR hM1 h2 with hc | hk2
      · exact .inl ⟨w2, h1.step h2, .refl, hc⟩
      · exact .inr ⟨hk2.isMarket hM1, hk.trans hk2⟩

/-! ### C112 -/

omit [Borsh C] in
/-- A call makes a market only of four accounts that are rent exempt. -/
theorem ran_rent (h : Ran env w accounts ix r w') (hno : ¬ IsMarket env w k) (hM : IsMarket env w' k) :
    ∀ j ∈ own w' k, env.rentExempt (w' j).lamports (w' j).data.length = true := by
  have h128 := hM.byte0
  have hsame : (w' k).data ≠ (w k).data := fun e => hno ⟨(h.frame k).1 ▸ hM.1, e ▸ hM.2.1, e ▸ hM.2.2⟩
  have hz : (w k).data[0]? = some 0 := by
    have hb := h.byte0 k
    rw [h128] at hb
    rcases h.touch k with e | e | ⟨j, _, hMj, rfl | ⟨_, e⟩ | ⟨_, e⟩ | ⟨_, e⟩⟩
    · exact absurd e hsame
    · exact e
    · exact absurd hMj hno
    all_goals
      rw [e] at hb
      rcases hb with e | e | ⟨_, e⟩ <;> cases e
  have hframe := h.frame
  have hb := h.byte0 k
  rw [h128, hz] at hb
  rcases hb with e | e | ⟨⟨p, rfl⟩, _⟩
  · cases e
  · cases e
  cases h with
  | @create a p _ f1 f2 hp hx =>
    obtain ⟨hc, rfl⟩ := createMarket_ok_iff.1 hx
    obtain ⟨d1, d2, d3, d4, d5⟩ := created_data hc
    have hk : k = a.market := by
      by_cases e1 : k = a.market
      · exact e1
      by_cases e2 : k = a.eventQueue
      · rw [e2, d2] at h128; cases h128
      by_cases e3 : k = a.bids
      · rw [e3, d3, List.getElem?_set_self (byte0_length hc.tagB)] at h128; cases h128
      by_cases e4 : k = a.asks
      · rw [e4, d4, List.getElem?_set_self (byte0_length hc.tagA)] at h128; cases h128
      · exact absurd (by rw [d5 k e1 e2 e3 e4]) hsame
    subst hk
    intro j hj
    rw [(hframe j).2.1, (created_owner w a p j).2]
    unfold own at hj
    rw [stateAt_created hc f1 f2] at hj
    simp only [List.mem_cons, List.not_mem_nil, or_false] at hj
    rcases hj with rfl | rfl | rfl | rfl
    · exact hc.rentM
    · exact hc.rentQ
    · exact hc.rentB
    · exact hc.rentA

/-- C112: the accounts of an open market are rent exempt. `rentExempt` is the runtime's test, of which only this is used:
an account that is rent exempt is so with more lamports. -/
theorem C112_rent_exempt (hmono : ∀ l l' n, l ≤ l' → env.rentExempt l n = true → env.rentExempt l' n = true)
    (hw : OnChain env C R w) (hR : ¬ R k) (hM : IsMarket env w k) :
    ∀ j ∈ own w k, env.rentExempt (w j).lamports (w j).data.length = true := by
  obtain ⟨w0, hg, h⟩ := hw
  induction h with
  | refl =>
    have := (hg k hM.1).byte0 hM.byte0
    cases this
  | @step w1 w2 h1 h2 ih =>
    have hw1 : OnChain env C R w1 := ⟨w0, hg, h1⟩
    by_cases hM1 : IsMarket env w1 k
    · rcases C111_step hw1 hR hM1 h2 with hc | hk
      · rw [hM.byte0] at hc; cases hc
      · intro j hj
        rw [hk.own] at hj
        obtain ⟨_, g2, g3⟩ := hk.2 j hj
        rw [g2]
        exact hmono _ _ _ g3 (ih hM1 j hj)
    · cases h2 with
      | @call accounts data r g1 g2 =>
        obtain ⟨ix, _, h⟩ := processInstruction_ok_iff.1 g2
        exact ran_rent h hM1 hM
      | @entry accounts data g1 g2 g3 =>
        have hlink := (show OnChain env C R _ from ⟨w0, hg, h1.step (.entry g1 g2 g3)⟩).inv.link k hR hM
        obtain ⟨reg, r, w3, d, e1, e2, e3, rfl⟩ := entrypoint_ok_iff.1 g3
        obtain ⟨ix, _, h⟩ := processInstruction_ok_iff.1 e2
        have hreg := g2 _ e1
        have hne : ∀ x, ¬ R x → (w3.setData reg d) x = w3 x := fun x hx => by
          unfold World.setData; rw [if_neg (by rintro rfl; exact hx hreg)]
        have hM3 : IsMarket env w3 k := by
          unfold IsMarket at hM ⊢
          rwa [hne k hR] at hM
        intro j hj
        rw [hne j (by
          simp only [own, List.mem_cons, List.not_mem_nil, or_false] at hj
          rcases hj with rfl | rfl | rfl | rfl
          · exact hR
          · exact hlink.noRegQ
          · exact hlink.noRegB
          · exact hlink.noRegA)]
        refine ran_rent h hM1 hM3 j ?_
        unfold own at hj ⊢
        rwa [stateAt_congr (by rw [hne k hR])] at hj
      | elsewhere he =>
        rcases he k with ⟨a1, a2, _⟩ | ⟨_, a⟩
        · exact absurd ⟨a1 ▸ hM.1, a2 ▸ hM.2.1, a2 ▸ hM.2.2⟩ hM1
        · have := (a hM.1).byte0 hM.byte0
          cases this

/-! ### Concrete cases -/
section
open DemoChain (key w3 w4 onChain_w3)

example := C111_step (k := key 1) onChain_w3 Accounts.demo_notR (Accounts.demo_isMarket (by decide +kernel)) demo_chainStep
example := C111_run (k := key 1) onChain_w3 Accounts.demo_notR (Accounts.demo_isMarket (by decide +kernel)) (.step .refl demo_chainStep)
example := C112_rent_exempt (env := DemoChain.env) (k := key 1) (fun l l' n h h' => by
  simp only [DemoChain.env, decide_eq_true_eq] at h' ⊢; omega) onChain_w3 Accounts.demo_notR
  (Accounts.demo_isMarket (by decide +kernel))
end

end Chain
end AOB
