import Verif.Proofs.Simulate
/-
All eight bytes of the tags, and the sizes of event queues, on the chain.
-/
namespace AOB
variable {C : Type} [Pod C]

/-- Tags are written in full, markets and event queues have exact sizes, queues room for five events. -/
structure TidyData (C : Type) [Pod C] (d : Bytes) : Prop where
  bids : d[0]? = some 130 → field d 0 8 = 130
  asks : d[0]? = some 131 → field d 0 8 = 131
  queue : d[0]? = some 129 → queueSlack C d.length = 0
  small : d.length ≤ MAX_ACCOUNT_LEN
  market : d[0]? = some 128 → d.length = 120
  events : d[0]? = some 129 → 5 ≤ queueCap C d.length

def Tidy (env : Env) (C : Type) [Pod C] (R : Pubkey → Prop) (w : World) : Prop :=
  ∀ k, ¬ R k → (w k).owner = env.programId → TidyData C (w k).data

theorem Fresh.tidy {d : Bytes} (h : Fresh d) : TidyData C d :=
  ⟨fun e => absurd (h.byte0 e) (by decide), fun e => absurd (h.byte0 e) (by decide), fun e => absurd (h.byte0 e) (by decide), h.2,
    fun e => absurd (h.byte0 e) (by decide), fun e => absurd (h.byte0 e) (by decide)⟩

theorem TidyData.of_head {d d' : Bytes} (h : TidyData C d) (ht : d'.take 8 = d.take 8) (hl : d'.length = d.length) :
    TidyData C d' := by
  have h0 : d'[0]? = d[0]? := by
    rw [← List.getElem?_take_of_lt (l := d') (show 0 < 8 by omega), ht, List.getElem?_take_of_lt (by omega)]
  have hf : field d' 0 8 = field d 0 8 := by rw [← field_take, ht, field_take]
  exact ⟨by rw [h0, hf]; exact h.bids, by rw [h0, hf]; exact h.asks, by rw [h0, hl]; exact h.queue, by rw [hl]; exact h.small,
    by rw [h0, hl]; exact h.market, by rw [h0, hl]; exact h.events⟩

theorem TidyData.of_byte0 {d : Bytes} {x : UInt8} (hs : d.length ≤ MAX_ACCOUNT_LEN) (h : d[0]? = some x) (h1 : x ≠ 129) (h2 : x ≠ 130) (h3 : x ≠ 131)
    (h4 : x = 128 → d.length = 120) : TidyData C d :=
  ⟨fun e => absurd (Option.some.inj (h.symm.trans e)) h2, fun e => absurd (Option.some.inj (h.symm.trans e)) h3,
    fun e => absurd (Option.some.inj (h.symm.trans e)) h1, hs,
    fun e => h4 (Option.some.inj (h.symm.trans e)), fun e => absurd (Option.some.inj (h.symm.trans e)) h1⟩

theorem field_set_fresh {d : Bytes} (h : Fresh d) {x : UInt8} (hl : 0 < d.length) : field (d.set 0 x) 0 8 = x.toNat := by
  rw [h.1]
  obtain ⟨n, hn⟩ : ∃ n, d.length = n + 1 := ⟨d.length - 1, by omega⟩
  rw [hn, List.replicate_succ, List.set_cons_zero]
  unfold field
  rw [List.drop_zero, List.take_succ_cons, ofLE, List.take_replicate, ofLE_zeros]
  omega

omit [Pod C] in
theorem take_append_eq {a b : Bytes} {n : Nat} (h : a.length = n) : (a ++ b).take n = a := by
  rw [← h, List.take_left]

theorem Loaded.store_head {w : World} {k : Pubkey} {m : Market C} (h : Loaded w k m) (m' : Market C) (j : Pubkey) :
    (store w k m' j).data.take 8 = (w j).data.take 8 := by
  obtain ⟨e1, e2, e3, e4⟩ := h.store_data m'
  have hb := h.bids.long
  have ha := h.asks.long
  have hq := h.queue.long
  by_cases h1 : j = (stateAt w k).eventQueue
  · subst h1; rw [e4]; unfold EventQueue.writeBack
    exact take_append_eq (by rw [List.length_take]; omega)
  by_cases h2 : j = (stateAt w k).bids
  · subst h2; rw [e2]; unfold Slab.writeBack
    exact take_append_eq (by rw [List.length_take]; omega)
  by_cases h3 : j = (stateAt w k).asks
  · subst h3; rw [e3]; unfold Slab.writeBack
    exact take_append_eq (by rw [List.length_take]; omega)
  · rw [store_other w k m' h1 h2 h3]

variable [CallbackInfo C]

/-- What a call does to the tag of an account. -/
theorem Ran.head {env : Env} {R : Pubkey → Prop} {w w' : World} (hi : ChainInv env C R w) {accounts : List Pubkey}
    (hR : ∀ k ∈ accounts, ¬ R k) {ix : Ix C} {r : Option OrderSummary} (hr : Ran env w accounts ix r w') (x : Pubkey) :
    (w' x).data.take 8 = (w x).data.take 8 ∨ (w' x).data[0]? = some 132 ∨
      ((w' x).data[0]? = some 128 ∧ (w' x).data.length = 120) ∨
      ((w' x).data[0]? = some 129 ∧ queueSlack C (w' x).data.length = 0 ∧ 5 ≤ queueCap C (w' x).data.length) ∨
      (∃ t : UInt8, (t = 130 ∨ t = 131) ∧ (w' x).data[0]? = some t ∧ field (w' x).data 0 8 = t.toNat) := by
  cases hr with
  | @create a p _ f1 f2 hp hx =>
    obtain ⟨m1, m2, m3, m4⟩ := parse_mem hp
    obtain ⟨hc, rfl⟩ := createMarket_ok_iff.1 hx
    obtain ⟨d1, d2, d3, d4, d5⟩ := created_data hc
    by_cases e1 : x = a.market
    · subst e1; right; right; left; rw [d1]; exact ⟨rfl, by
        rw [newMarketData, List.length_append, toLE_length, MarketState.length_toBytes]⟩
    by_cases e2 : x = a.eventQueue
    · subst e2; right; right; right; left
      rw [d2]
      refine ⟨rfl, ?_⟩
      have h1 := hc.sizeQ
      have h2 := hc.modQ
      unfold queueSlack queueCap
      rw [List.length_append, toLE_length, List.length_drop, show 8 + ((w a.eventQueue).data.length - 8) =
        (w a.eventQueue).data.length by omega]
      exact ⟨h2, (Nat.le_div_iff_mul_le (by omega)).2 (by omega)⟩
    by_cases e3 : x = a.bids
    · subst e3; right; right; right; right
      have hl := byte0_length hc.tagB
      rw [d3]
      exact ⟨130, .inl rfl, List.getElem?_set_self hl, field_set_fresh (hi.fresh _ (hR _ m3) hc.ownerB hc.tagB) hl⟩
    by_cases e4 : x = a.asks
    · subst e4; right; right; right; right
      have hl := byte0_length hc.tagA
      rw [d4]
      exact ⟨131, .inr rfl, List.getElem?_set_self hl, field_set_fresh (hi.fresh _ (hR _ m4) hc.ownerA hc.tagA) hl⟩
    · left; rw [d5 x e1 e2 e3 e4]
  | newOrder f hp hx =>
    obtain ⟨ha, m, m', hm, he, rfl⟩ := processNewOrder_ok hx
    exact .inl (hm.store_head m' x)
  | consume f hp hx =>
    obtain ⟨o1, _, _, q, q', hq, he, rfl⟩ := processConsume_ok hx
    left
    unfold storeQueue
    rw [World.setData_data]
    split
    · rename_i e; subst e; unfold EventQueue.writeBack
      have := hq.queue.long
      exact take_append_eq (by rw [List.length_take]; omega)
    · rfl
  | cancel f hp hx =>
    obtain ⟨ha, b, b', hb, he, rfl⟩ := processCancel_ok hx
    obtain ⟨m, hm, rfl, e⟩ := hi.storedBook (b' := b') (hR _ (parse_mem hp).1) ha.market hb
    rw [e]
    exact .inl (hm.store_head _ x)
  | @close a t _ hp hx =>
    obtain ⟨⟨m, hc⟩, rfl⟩ := closeMarket_ok_iff.1 hx
    obtain ⟨d1, d2, d3, d4⟩ := closed_data hc
    by_cases e1 : x = a.market
    · subst e1; right; left; rw [d1]; rfl
    by_cases e2 : x = a.eventQueue
    · subst e2; right; left; rw [d2]; rfl
    by_cases e3 : x = a.bids
    · subst e3; right; left; rw [d3]; rfl
    by_cases e4 : x = a.asks
    · subst e4; right; left; rw [d4]; rfl
    · left; rw [(closed_other w a t e1 e2 e3 e4).2.1]
  | massCancel f1 f2 hp hx =>
    obtain ⟨ha, b, b', y, z, hb, he, _, rfl⟩ := processMassCancel_ok hx
    obtain ⟨m, hm, rfl, e⟩ := hi.storedBook (b' := b') (hR _ (parse_mem hp).1) ha.market hb
    rw [e]
    exact .inl (hm.store_head _ x)

theorem Tidy.ran {env : Env} {R : Pubkey → Prop} {w w' : World} (h : Tidy env C R w) (hi : ChainInv env C R w)
    {accounts : List Pubkey} (hR : ∀ k ∈ accounts, ¬ R k) {ix : Ix C} {r : Option OrderSummary}
    (hr : Ran env w accounts ix r w') : Tidy env C R w' := by
  intro x hx ho
  rw [(hr.frame x).1] at ho
  have hs : (w' x).data.length ≤ MAX_ACCOUNT_LEN := by rw [(hr.frame x).2.1]; exact (h x hx ho).small
  rcases hr.head hi hR x with g | g | ⟨g, g'⟩ | ⟨g, g', g2⟩ | ⟨t, ht, g, g'⟩
  · exact (h x hx ho).of_head g (hr.frame x).2.1
  · exact .of_byte0 hs g (by decide) (by decide) (by decide) (fun e => absurd e (by decide))
  · exact .of_byte0 hs g (by decide) (by decide) (by decide) (fun _ => g')
  · exact ⟨fun e => (by rw [g] at e; cases e), fun e => (by rw [g] at e; cases e), fun _ => g', hs, fun e => (by rw [g] at e; cases e),
      fun _ => g2⟩
  · rcases ht with rfl | rfl
    · exact ⟨fun _ => g', fun e => (by rw [g] at e; cases e), fun e => (by rw [g] at e; cases e), hs,
        fun e => (by rw [g] at e; cases e), fun e => (by rw [g] at e; cases e)⟩
    · exact ⟨fun e => (by rw [g] at e; cases e), fun _ => g', fun e => (by rw [g] at e; cases e), hs,
        fun e => (by rw [g] at e; cases e), fun e => (by rw [g] at e; cases e)⟩

variable [Borsh C]

theorem Tidy.step {env : Env} {R : Pubkey → Prop} {w w' : World} (h : Tidy env C R w) (hi : ChainInv env C R w)
    (hs : ChainStep env C R w w') : Tidy env C R w' := by
  cases hs with
  | call hR hx =>
    obtain ⟨ix, _, hr⟩ := processInstruction_ok_iff.1 hx
    exact h.ran hi hR hr
  | entry hR hreg hx =>
    obtain ⟨reg, r, w1, d, h1, h2, h3, rfl⟩ := entrypoint_ok_iff.1 hx
    obtain ⟨ix, _, hr⟩ := processInstruction_ok_iff.1 h2
    intro x hn ho
    have hne : x ≠ reg := by rintro rfl; exact hn (hreg _ h1)
    have e : w1.setData reg d x = w1 x := by unfold World.setData; rw [if_neg hne]
    rw [e] at ho ⊢
    exact h.ran hi hR hr x hn ho
  | elsewhere he =>
    intro x hx ho
    rcases he x with ⟨g1, g2, _⟩ | ⟨_, g⟩
    · rw [g1] at ho
      rw [g2]
      exact h x hx ho
    · exact (g ho).tidy

theorem OnChain.tidy {env : Env} {R : Pubkey → Prop} {w : World} (h : OnChain env C R w) : Tidy env C R w := by
  obtain ⟨w0, h0, h1⟩ := h
  induction h1 with
  | refl => exact fun k _ ho => (h0 k ho).tidy
  | step h2 h3 ih => exact ih.step (OnChain.inv ⟨w0, h0, h2⟩) h3

end AOB
