import Verif.Spec.Runtime
import Verif.Props.Client
/-
The program stays within what the runtime permits (C74).
-/
namespace AOB
namespace Runtime
variable {C : Type} [CallbackInfo C] [Pod C] [Borsh C] {env : Env} {R : Pubkey → Prop} {w w' : World}

/-- The accounts an instruction changes, by position. -/
def written {C : Type} : Ix C → List Pubkey → List Pubkey
  | .createMarket _, l => l.take 4
  | .newOrder _, l => (l.drop 1).take 3
  | .cancelOrder _, l => (l.drop 2).take 2
  | .massCancelOrders _, l => (l.drop 2).take 2
  | .consumeEvents _, l => (l.drop 1).take 1
  | .closeMarket, l => l.take 5

theorem acc_ext {y z : Account} (h1 : y.owner = z.owner) (h2 : y.lamports = z.lamports) (h3 : y.data = z.data) : y = z := by
  cases y; cases z; simp_all

theorem parse_eq {l : List Pubkey} {a : BookAccounts} (h : BookAccounts.parse l = .ok a) :
    ∃ t, l = a.market :: a.eventQueue :: a.bids :: a.asks :: t := by
  unfold BookAccounts.parse at h
  split at h
  · obtain rfl := Except.ok.inj h; exact ⟨_, rfl⟩
  · cases h

theorem parseConsume_eq {l : List Pubkey} {m q : Pubkey} (h : parseConsume l = .ok (m, q)) : ∃ t, l = m :: q :: t := by
  unfold parseConsume at h
  split at h
  · obtain ⟨rfl, rfl⟩ := Prod.mk.inj (Except.ok.inj h); exact ⟨_, rfl⟩
  · cases h

theorem parseClose_eq {l : List Pubkey} {a : BookAccounts} {x : Pubkey} (h : parseClose l = .ok (a, x)) :
    ∃ t, l = a.market :: a.eventQueue :: a.bids :: a.asks :: x :: t := by
  unfold parseClose at h
  split at h
  · obtain ⟨rfl, rfl⟩ := Prod.mk.inj (Except.ok.inj h); exact ⟨_, rfl⟩
  · cases h

omit [Borsh C] in
theorem ran_written {accounts : List Pubkey} {ix : Ix C} {r : Option OrderSummary} (h : Ran env w accounts ix r w')
    {k : Pubkey} (hk : k ∉ written ix accounts) : w' k = w k := by
  cases h with
  | @create a p _ f1 f2 hp hx =>
    obtain ⟨hc, rfl⟩ := createMarket_ok_iff.1 hx
    obtain ⟨t, rfl⟩ := parse_eq hp
    simp [written] at hk
    exact (created_data hc).2.2.2.2 k hk.1 hk.2.1 hk.2.2.1 hk.2.2.2
  | @newOrder a p sm _ f hp hx =>
    obtain ⟨ha, m, m', hm, he, rfl⟩ := processNewOrder_ok hx
    obtain ⟨t, rfl⟩ := parse_eq hp
    simp [written, ha.keyQ, ha.keyB, ha.keyA] at hk
    exact store_other w _ _ hk.1 hk.2.1 hk.2.2
  | @consume j0 q0 n _ f hp hx =>
    obtain ⟨o1, _, ek, q, q', hq, he, rfl⟩ := processConsume_ok hx
    obtain ⟨t, rfl⟩ := parseConsume_eq hp
    simp [written, ek] at hk
    refine acc_ext (storeQueue_meta _ _ _ _).1 (storeQueue_meta _ _ _ _).2 ?_
    rw [storeQueue_data, if_neg hk]
  | @cancel a id sm _ f hp hx =>
    obtain ⟨ha, b, b', hb, he, rfl⟩ := processCancel_ok hx
    obtain ⟨t, rfl⟩ := parse_eq hp
    simp [written, ha.keyB, ha.keyA] at hk
    refine acc_ext (storeBook_meta _ _ _ _).1 (storeBook_meta _ _ _ _).2 ?_
    rw [storeBook_data, if_neg hk.2, if_neg hk.1]
  | @close a x _ hp hx =>
    obtain ⟨⟨m, hc⟩, rfl⟩ := closeMarket_ok_iff.1 hx
    obtain ⟨t, rfl⟩ := parseClose_eq hp
    simp [written] at hk
    obtain ⟨k1, k2, k3, k4, k5⟩ := hk
    obtain ⟨c1, c2, -⟩ := closed_other w a x k1 k2 k3 k4
    refine acc_ext c1 ?_ c2
    simp only [closed, World.setLamports_lamports, World.setData_lamports, k1, k2, k3, k4, k5, if_false]
  | @massCancel a ids sm _ f1 f2 hp hx =>
    obtain ⟨ha, b, b', _, _, hb, he, _, rfl⟩ := processMassCancel_ok hx
    obtain ⟨t, rfl⟩ := parse_eq hp
    simp [written, ha.keyB, ha.keyA] at hk
    refine acc_ext (storeBook_meta _ _ _ _).1 (storeBook_meta _ _ _ _).2 ?_
    rw [storeBook_data, if_neg hk.2, if_neg hk.1]

/-- The owners of the accounts that are written. -/
theorem ran_owner (hw : OnChain env C R w) {accounts : List Pubkey} (hR : ∀ k, accounts.head? = some k → ¬ R k) {ix : Ix C}
    {r : Option OrderSummary} (h : Ran env w accounts ix r w') {k : Pubkey} (hk : (w k).owner ≠ env.programId) :
    ((w' k).data = (w k).data ∨ ∃ p, ix = .createMarket p ∧ accounts.head? = some k) ∧ (w k).lamports ≤ (w' k).lamports := by
  cases h with
  | @create a p _ f1 f2 hp hx =>
    obtain ⟨hc, rfl⟩ := createMarket_ok_iff.1 hx
    obtain ⟨t, rfl⟩ := parse_eq hp
    refine ⟨?_, Nat.le_of_eq (created_owner w a p k).2.symm⟩
    by_cases e : k = a.market
    · exact .inr ⟨p, rfl, by rw [e]; rfl⟩
    · left
      rw [(created_data hc).2.2.2.2 k e (by rintro rfl; exact hk hc.ownerQ) (by rintro rfl; exact hk hc.ownerB)
        (by rintro rfl; exact hk hc.ownerA)]
  | @newOrder a p sm _ f hp hx =>
    obtain ⟨ha, m, m', hm, he, rfl⟩ := processNewOrder_ok hx
    have := store_other w a.market m' (j := k) (by rw [← ha.keyQ]; rintro rfl; exact hk ha.eventQueue)
      (by rw [← ha.keyB]; rintro rfl; exact hk ha.bids) (by rw [← ha.keyA]; rintro rfl; exact hk ha.asks)
    rw [this]
    exact ⟨.inl rfl, Nat.le_refl _⟩
  | @consume j0 q0 n _ f hp hx =>
    obtain ⟨o1, o2, ek, q, q', hq, he, rfl⟩ := processConsume_ok hx
    rw [(storeQueue_meta _ _ _ _).2, storeQueue_data, if_neg (by rw [← ek]; rintro rfl; exact hk o2)]
    exact ⟨.inl rfl, Nat.le_refl _⟩
  | @cancel a id sm _ f hp hx =>
    obtain ⟨ha, b, b', hb, he, rfl⟩ := processCancel_ok hx
    rw [(storeBook_meta _ _ _ _).2, storeBook_data, if_neg (by rw [← ha.keyA]; rintro rfl; exact hk ha.asks),
      if_neg (by rw [← ha.keyB]; rintro rfl; exact hk ha.bids)]
    exact ⟨.inl rfl, Nat.le_refl _⟩
  | @close a x _ hp hx =>
    obtain ⟨⟨m, hc⟩, rfl⟩ := closeMarket_ok_iff.1 hx
    obtain ⟨t, rfl⟩ := parseClose_eq hp
    have hl := hw.inv.link a.market (hR _ rfl) ⟨hc.owner, hc.loaded.len, hc.loaded.tag⟩
    obtain ⟨_, c2, c3⟩ := closed_other w a x (j := k) (by rintro rfl; exact hk hc.owner)
      (by rw [hc.keyQ]; rintro rfl; exact hk hl.ownerQ) (by rw [hc.keyB]; rintro rfl; exact hk hl.ownerB)
      (by rw [hc.keyA]; rintro rfl; exact hk hl.ownerA)
    exact ⟨.inl c2, c3⟩
  | @massCancel a ids sm _ f1 f2 hp hx =>
    obtain ⟨ha, b, b', _, _, hb, he, _, rfl⟩ := processMassCancel_ok hx
    rw [(storeBook_meta _ _ _ _).2, storeBook_data, if_neg (by rw [← ha.keyA]; rintro rfl; exact hk ha.asks),
      if_neg (by rw [← ha.keyB]; rintro rfl; exact hk ha.bids)]
    exact ⟨.inl rfl, Nat.le_refl _⟩

theorem perm_front {α : Type} [DecidableEq α] {ks xs : List α} (hk : ks.Nodup) (hx : xs.Nodup) (h : ∀ x ∈ xs, x ∈ ks) :
    ∃ others, ks.Perm (xs ++ others) ∧ ∀ y ∈ others, y ∉ xs := by
  refine ⟨ks.filter (· ∉ xs), ?_, fun y hy => by simpa using (List.mem_filter.1 hy).2⟩
  rw [List.perm_ext_iff_of_nodup hk]
  · intro y
    simp only [List.mem_append, List.mem_filter, decide_not, Bool.not_eq_eq_eq_not, Bool.not_true, decide_eq_false_iff_not]
    constructor
    · intro hy; by_cases e : y ∈ xs <;> simp [e, hy]
    · rintro (hy | hy)
      · exact h y hy
      · exact hy.1
  · rw [List.nodup_append]
    refine ⟨hx, hk.filter _, ?_⟩
    rintro a ha b hb rfl
    simpa [ha] using (List.mem_filter.1 hb).2

omit [Borsh C] in
theorem ran_total {accounts : List Pubkey} {ix : Ix C} {r : Option OrderSummary} (h : Ran env w accounts ix r w')
    {ks : List Pubkey} (hn : ks.Nodup) (hks : ∀ k ∈ accounts, k ∈ ks) :
    (ks.map fun k => (w' k).lamports).sum = (ks.map fun k => (w k).lamports).sum := by
  by_cases hc : ix = .closeMarket
  · subst hc
    cases h with
    | @close a x _ hp hx =>
      obtain ⟨⟨m, hcl⟩, -⟩ := closeMarket_ok_iff.1 hx
      obtain ⟨t, rfl⟩ := parseClose_eq hp
      obtain ⟨d1, d2, d3, d4, d5, d6⟩ := hcl.loaded.distinct
      rw [← hcl.keyQ] at d1 d4 d5
      rw [← hcl.keyB] at d2 d4 d6
      rw [← hcl.keyA] at d3 d5 d6
      have hx' : [x, a.market, a.bids, a.asks, a.eventQueue].Nodup := by
        simp [hcl.neM, hcl.neB, hcl.neA, hcl.neQ, d1, d2, d3, d4.symm, d5.symm, d6]
      obtain ⟨others, hp1, hp2⟩ := perm_front hn hx' (by
        intro y hy
        apply hks
        simp at hy ⊢
        tauto)
      exact Accounts.C37_total hx hp2 hp1
  · congr 1
    exact List.map_congr_left fun k _ => (h.frame k).2.2.1 hc

/-- What a call with the accounts `accounts` and the register `reg` does is permitted if the accounts it writes are passed
as writable and the register, and the market account in the case of `create_market`, belong to the program. -/
theorem permitted (hw : OnChain env C R w) {ms : List Meta} {accounts : List Pubkey} {reg : Pubkey} {data : Bytes}
    {ix : Ix C} (hkeys : ms.map Meta.key = accounts ++ [reg]) (hR : ∀ k, accounts.head? = some k → ¬ R k)
    (hreg : (w reg).owner = env.programId) (hregw : ∃ x ∈ ms, x.key = reg ∧ x.writable = true)
    (hM : ∀ p k, ix = .createMarket p → accounts.head? = some k → (w k).owner = env.programId)
    (hwr : ∀ k ∈ written ix accounts, ∃ x ∈ ms, x.key = k ∧ x.writable = true) (hix : decodeIx C data = .ok ix)
    (h : entrypoint env C w (ms.map Meta.key) data = .ok w') : Permitted env.programId ms w w' := by
  rw [hkeys] at h
  obtain ⟨reg', r, w1, d, h1, h2, h3, rfl⟩ := entrypoint_ok_iff.1 h
  rw [List.getLast?_concat] at h1
  obtain rfl := Option.some.inj h1
  rw [List.dropLast_concat] at h2
  obtain ⟨ix', hix', hran⟩ := processInstruction_ok_iff.1 h2
  obtain rfl := Except.ok.inj (hix.symm.trans hix')
  obtain ⟨-, f2, -⟩ := Accounts.C41_frame_entrypoint h
  refine ⟨?_, fun k => (f2 k).1, fun k => (f2 k).2, ?_, ?_⟩
  · intro k hk
    have hne : k ≠ reg := by
      rintro rfl
      obtain ⟨x, hx, e, hwx⟩ := hregw
      rw [hk x hx e] at hwx
      cases hwx
    have : (w1.setData reg d) k = w1 k := by unfold World.setData; rw [if_neg hne]
    rw [this]
    apply ran_written hran
    intro hkw
    obtain ⟨x, hx, e, hwx⟩ := hwr k hkw
    rw [hk x hx e] at hwx
    cases hwx
  · intro k hk
    have hne : k ≠ reg := by rintro rfl; exact hk hreg
    obtain ⟨o1, o2⟩ := ran_owner hw hR hran hk
    rw [World.setData_data, if_neg hne, World.setData_lamports]
    refine ⟨?_, o2⟩
    rcases o1 with o1 | ⟨p, rfl, e⟩
    · exact o1
    · exact absurd (hM p k rfl e) hk
  · intro ks hn hks
    simp only [World.setData_lamports]
    refine ran_total hran hn fun k hk => (hks k).2 ?_
    have : k ∈ ms.map Meta.key := by rw [hkeys]; simp [hk]
    exact List.mem_map.1 this

/-- C74. What the stand-alone program does when called through its bindings is permitted by the runtime: it writes only
to accounts the bindings mark as writable, leaves owners and sizes alone, changes no data of other programs and takes no
lamports from them, and keeps the sum of the balances. The register and a market account to be created must belong to
the program. -/
theorem C74_bindings_permitted (hw : OnChain env C R w) {a : BookAccounts} {target reg : Pubkey} {data : Bytes} {ix : Ix C}
    (hR : ¬ R a.market) (hreg : (w reg).owner = env.programId)
    (hM : ∀ p, ix = .createMarket p → (w a.market).owner = env.programId) (hix : decodeIx C data = .ok ix)
    (h : entrypoint env C w ((ix.metas a target reg).map Meta.key) data = .ok w') :
    Permitted env.programId (ix.metas a target reg) w w' := by
  cases ix with
  | consumeEvents n =>
    exact permitted hw (accounts := [a.market, a.eventQueue]) rfl (by simpa using hR) hreg (by simp [Ix.metas, Meta.ro, Meta.rw])
      (by intro p k hp; cases hp) (by simp [Ix.metas, written, Meta.ro, Meta.rw]) hix h
  | closeMarket =>
    exact permitted hw (accounts := [a.market, a.eventQueue, a.bids, a.asks, target]) rfl (by simpa using hR) hreg
      (by simp [Ix.metas, Meta.rw]) (by intro p k hp; cases hp) (by simp [Ix.metas, written, Meta.rw]) hix h
  | createMarket p =>
    exact permitted hw (accounts := [a.market, a.eventQueue, a.bids, a.asks]) rfl (by simpa using hR) hreg
      (by simp [Ix.metas, Meta.rw]) (by intro p k hp e; obtain rfl := Option.some.inj e; exact hM p hp)
      (by simp [Ix.metas, written, Meta.rw]) hix h
  | newOrder p =>
    exact permitted hw (accounts := [a.market, a.eventQueue, a.bids, a.asks]) rfl (by simpa using hR) hreg
      (by simp [Ix.metas, Meta.ro, Meta.rw]) (by intro p k hp; cases hp) (by simp [Ix.metas, written, Meta.ro, Meta.rw]) hix h
  | cancelOrder p =>
    exact permitted hw (accounts := [a.market, a.eventQueue, a.bids, a.asks]) rfl (by simpa using hR) hreg
      (by simp [Ix.metas, Meta.ro, Meta.rw]) (by intro p k hp; cases hp) (by simp [Ix.metas, written, Meta.ro, Meta.rw]) hix h
  | massCancelOrders p =>
    exact permitted hw (accounts := [a.market, a.eventQueue, a.bids, a.asks]) rfl (by simpa using hR) hreg
      (by simp [Ix.metas, Meta.ro, Meta.rw]) (by intro p k hp; cases hp) (by simp [Ix.metas, written, Meta.ro, Meta.rw]) hix h

omit [CallbackInfo C] [Borsh C] in
/-- C74. `create_market` does not look at the owner of the market account, but the runtime does: it refuses the call if the
account is not the program's. -/
theorem C74_foreign_market_refused {a : BookAccounts} {p : CreateParams} (h : Processor.createMarket env C w a p = .ok w')
    (ho : (w a.market).owner ≠ env.programId) (ms : List Meta) : ¬ Permitted env.programId ms w w' := by
  intro hp
  obtain ⟨hc, rfl⟩ := createMarket_ok_iff.1 h
  have h1 := (hp.foreign _ ho).1
  rw [(created_data hc).1] at h1
  have h2 := hc.tagM
  rw [← h1] at h2
  unfold newMarketData at h2
  rw [field_head _ (by decide)] at h2
  exact absurd h2 (by decide)

omit [CallbackInfo C] [Pod C] [Borsh C] in
theorem js_keys (market queue bids asks authority target : Pubkey) (i : Js.Ix) :
    (i.metas market queue bids asks authority target).map Meta.key = i.keys market queue bids asks authority target := by
  cases i <;> rfl

omit [CallbackInfo C] [Pod C] [Borsh C] in
/-- C74. The bindings ask for no signature; the client asks for that of the authority, except when creating a market. The
bindings mark the market account as read-only, and no other, except when creating or closing a market; the client the authority, and
no other. -/
theorem C74_signatures (a : BookAccounts) (target reg : Pubkey) (ix : Ix C)
    (market queue bids asks authority : Pubkey) (i : Js.Ix) :
    (∀ x ∈ ix.metas a target reg, x.signer = false) ∧
    ((i.metas market queue bids asks authority target).filter Meta.signer).map Meta.key =
      (match i with | .createMarket .. => [] | _ => [authority]) ∧
    ((ix.metas a target reg).filter (fun x => !x.writable)).map Meta.key =
      (match ix with | .createMarket _ | .closeMarket => [] | _ => [a.market]) ∧
    ((i.metas market queue bids asks authority target).filter (fun x => !x.writable)).map Meta.key =
      (match i with | .createMarket .. => [] | _ => [authority]) := by
  refine ⟨?_, ?_, ?_, ?_⟩
  · cases ix <;> simp [Ix.metas, Meta.ro, Meta.rw]
  · cases i <;> rfl
  · cases ix <;> rfl
  · cases i <;> rfl

/-- C74. The client's `closeMarket` is refused by the runtime even when the program carries it out: the program pays the
lamports to `authority`, which the client marks as read-only. (Unless `authority` is also the `target`, or becomes
writable by paying the fees of the transaction.) -/
theorem C74_js_close_refused (hw : OnChain env C R w) {market queue bids asks authority target : Pubkey} (hR : ¬ R market)
    (hne : authority ≠ target) (h : entrypoint env C w
      ((Js.Ix.closeMarket.metas market queue bids asks authority target).map Meta.key) Js.Ix.closeMarket.serialize = .ok w') :
    ¬ Permitted env.programId (Js.Ix.closeMarket.metas market queue bids asks authority target) w w' := by
  intro hp
  rw [js_keys] at h
  obtain ⟨reg, r, w1, d, h1, h2, h3, rfl⟩ := entrypoint_ok_iff.1 h
  obtain ⟨ix', hix', hran⟩ := processInstruction_ok_iff.1 h2
  obtain rfl : Ix.closeMarket = ix' := Except.ok.inj (Client.C58_encodings.2.2.2.symm.trans hix')
  cases hran with
  | close hq hx =>
    obtain ⟨rfl, rfl⟩ := Prod.mk.inj (Except.ok.inj hq)
    obtain ⟨⟨m, hc⟩, -⟩ := closeMarket_ok_iff.1 hx
    obtain ⟨l1, -⟩ := Accounts.C37_lamports hx
    have hl := (hw.inv.link market hR ⟨hc.owner, hc.loaded.len, hc.loaded.tag⟩).live
    have n1 := hc.neM
    have n2 := hc.neB
    have n3 := hc.neA
    have n4 := hc.neQ
    have := hp.readonly authority (by
      simp only [Js.Ix.metas, Meta.rw, List.forall_mem_cons]
      refine ⟨fun e => absurd e.symm n1, fun e => absurd e.symm n4, fun e => absurd e.symm n2, fun e => absurd e.symm n3,
        fun _ => trivial, fun e => absurd e.symm hne, fun _ h => absurd h List.not_mem_nil⟩)
    have e := congrArg Account.lamports this
    rw [World.setData_lamports] at e
    dsimp only at l1
    omega

/-- C74. A program that embeds the order book and passes on what the client builds is not refused: what it does is
permitted, except when closing a market with a `target` that is not the `authority`. -/
theorem C74_js_permitted (hw : OnChain env C R w) {market queue bids asks authority target : Pubkey} (hR : ¬ R market)
    {i : Js.Ix} (hi : i = .closeMarket → authority = target) {r : Option OrderSummary} (h : Processor.processInstruction env C w
      ((i.metas market queue bids asks authority target).map Meta.key) i.serialize = .ok (r, w')) :
    Permitted env.programId (i.metas market queue bids asks authority target) w w' := by
  have hall := h
  obtain ⟨ix, hix, hran⟩ := processInstruction_ok_iff.1 h
  have hnc : ∀ p, ix ≠ .createMarket p := by
    rintro p rfl
    obtain ⟨-, e | ⟨e, -⟩⟩ := Wire.C45_exact hix
    · cases i with
      | createMarket a1 a2 a3 a4 a5 a6 => exact Client.C58_createMarket_witness a1 a2 a3 a4 a5 a6 w _ _ hall
      | _ => exact absurd (List.cons.inj e).1 (by simp [Wire.number])
    · cases e
  have hwr : ∀ k ∈ written ix ((i.metas market queue bids asks authority target).map Meta.key),
      ∃ x ∈ i.metas market queue bids asks authority target, x.key = k ∧ x.writable = true := by
    have htag : i.serialize.head? = some (Wire.number ix) := by
      obtain ⟨-, e | ⟨rfl, r, e⟩⟩ := Wire.C45_exact hix <;> rw [e] <;> rfl
    cases ix <;> cases i <;>
      first
      | exact absurd rfl (hnc _)
      | (simp [Wire.number, Js.Ix.serialize] at htag; done)
      | (simp [written, Js.Ix.metas, Meta.rw]; done)
      | (obtain rfl := hi rfl; simp [written, Js.Ix.metas, Meta.rw]; done)
  obtain ⟨-, f2, -⟩ := Accounts.C41_frame hall
  refine ⟨?_, fun k => (f2 k).1, fun k => (f2 k).2, ?_, ?_⟩
  · intro k hk
    apply ran_written hran
    intro hkw
    obtain ⟨x, hx, e, hwx⟩ := hwr k hkw
    rw [hk x hx e] at hwx
    cases hwx
  · intro k hk
    obtain ⟨o1, o2⟩ := ran_owner hw (by cases i <;> simpa [Js.Ix.metas, Meta.rw] using hR) hran hk
    refine ⟨?_, o2⟩
    rcases o1 with o1 | ⟨p, rfl, e⟩
    · exact o1
    · exact absurd rfl (hnc p)
  · intro ks hn hks
    exact ran_total hran hn fun k hk => (hks k).2 (List.mem_map.1 hk)

/-- C74. The stand-alone program refuses everything the client builds if `authority` and `target` are accounts without
data, such as wallets: it takes the last account for its return register. -/
theorem C74_js_wallets_refused {market queue bids asks authority target : Pubkey} (h1 : (w authority).data = [])
    (h2 : (w target).data = []) (i : Js.Ix) :
    ∃ e, entrypoint env C w ((i.metas market queue bids asks authority target).map Meta.key) i.serialize = .error e := by
  cases h : entrypoint env C w ((i.metas market queue bids asks authority target).map Meta.key) i.serialize with
  | error e => exact ⟨e, rfl⟩
  | ok w' =>
    exfalso
    rw [js_keys] at h
    obtain ⟨reg, r, w1, d, g1, g2, g3, rfl⟩ := entrypoint_ok_iff.1 h
    have key : (w reg).data ≠ [] := by
      intro e
      have hl := (Accounts.C41_frame g2).2.1 reg
      unfold writeRegister at g3
      dsimp only at g3
      split at g3
      · rename_i hle
        rw [hl.2, e] at hle
        cases r <;> simp [encRegister] at hle
      · cases g3
    cases i with
    | createMarket ca cil cidl mb tick cr =>
      exact absurd g2 (Client.C58_createMarket_witness ca cil cidl mb tick cr w _ _)
    | _ =>
      obtain rfl := Option.some.inj g1
      first | exact key h1 | exact key h2

/-- C74. The binding `mass_cancel_orders` never succeeds: its data means `close_market`, for which its accounts are one too
few. -/
theorem C74_mass_cancel_refused (w : World) (a : BookAccounts) (target reg : Pubkey) (ids : List Nat) :
    entrypoint env C w (((Ix.massCancelOrders ids : Ix C).metas a target reg).map Meta.key)
      (Ix.massCancelOrders ids : Ix C).binding = .error (.prog .notEnoughAccountKeys) := by
  rfl

/-! ### Concrete cases -/
section
open DemoChain (key w2 w4 w5 w7 genesis succeeds afterEntry_step onChain_w4 onChain_w7)

/-- The accounts of the second market. -/
def second : BookAccounts := ⟨key 11, key 12, key 13, key 14⟩

/-- A bid posted to the second market through the bindings. -/
example : Permitted DemoChain.env.programId
    ((Ix.newOrder (DemoChain.order .bid 4 9 3)).metas second (key 5) (key 6)) w4 w5 :=
  C74_bindings_permitted (C := Bytes32) onChain_w4 (by show key 11 ≠ key 6; decide +kernel) (by decide +kernel)
    (by intro p hp; cases hp) (data := DemoChain.newOrder .bid 4 9 3) (by rfl)
    (afterEntry_step (by decide +kernel))

example : (w5 (key 13)).data ≠ (w4 (key 13)).data ∧ (w5 (key 6)).data ≠ (w4 (key 6)).data := by decide +kernel

/-- A market account of another program (here the owner of the wallets) is accepted by `create_market` itself. -/
example : succeeds (Processor.createMarket DemoChain.env Bytes32 (fun k => if k = key 1 then { genesis k with owner := key 0 }
    else genesis k) ⟨key 1, key 2, key 3, key 4⟩ ⟨1, 1⟩) = true := by decide +kernel

/-- Closing the emptied first market with the client: `authority` 5, and an account with data as target. The program
agrees. -/
example : succeeds (entrypoint DemoChain.env Bytes32 w7
    ((Js.Ix.closeMarket.metas (key 1) (key 2) (key 3) (key 4) (key 5) (key 6)).map Meta.key) Js.Ix.closeMarket.serialize) = true ∧
    key 5 ≠ key 6 := by decide +kernel

example := fun w' => C74_js_close_refused (C := Bytes32) (w' := w') (market := key 1) (queue := key 2) (bids := key 3) (asks := key 4)
  (authority := key 5) (target := key 6) onChain_w7 (by show key 1 ≠ key 6; decide +kernel) (by decide +kernel)

/-- Wallets have no data; a program that embeds the order book would have taken the cancellation. -/
example : (w4 (key 7)).data = [] ∧ (w4 (key 8)).data = [] ∧
    succeeds (Processor.processInstruction DemoChain.env Bytes32 w4
      (((Js.Ix.cancelOrder DemoChain.askId).metas (key 1) (key 2) (key 3) (key 4) (key 7) (key 8)).map Meta.key)
      (Js.Ix.cancelOrder DemoChain.askId).serialize) = true := by decide +kernel

/-! Each theorem applied. -/

example := C74_foreign_market_refused (C := Bytes32) (Accounts.demo_ok (x := Processor.createMarket DemoChain.env Bytes32
  (fun k => if k = key 1 then { genesis k with owner := key 0 } else genesis k) ⟨key 1, key 2, key 3, key 4⟩ ⟨1, 1⟩)
  (by decide +kernel)).choose_spec (by decide +kernel)

example := C74_js_permitted (R := DemoChain.R) (i := .cancelOrder DemoChain.askId) onChain_w4
  (by show key 1 ≠ key 6; decide +kernel) (fun h => by cases h)
  (DemoChain.after_step (w := w4) (l := ((Js.Ix.cancelOrder DemoChain.askId).metas (key 1) (key 2) (key 3) (key 4) (key 7)
    (key 8)).map Meta.key) (d := (Js.Ix.cancelOrder DemoChain.askId).serialize) (by decide +kernel)).choose_spec

example := C74_js_wallets_refused (env := DemoChain.env) (C := Bytes32) (w := w4) (market := key 1) (queue := key 2)
  (bids := key 3) (asks := key 4) (authority := key 7) (target := key 8) (by decide +kernel) (by decide +kernel)
  (.cancelOrder DemoChain.askId)

end

end Runtime
end AOB
