import Verif.Proofs.OpenClose
/-
`process_instruction` as one of the six processors.
-/
namespace AOB

section
variable {C : Type} [Pod C] [CallbackInfo C] [Borsh C]

/-- Instruction `ix` has run on the first accounts of the list. -/
inductive Ran (env : Env) (w : World) (accounts : List Pubkey) : Ix C → Option OrderSummary → World → Prop where
  | create {a : BookAccounts} {p : CreateParams} {w' : World} : p.minBaseOrderSize < 256 ^ 8 → p.tickSize < 256 ^ 8 →
      BookAccounts.parse accounts = .ok a → Processor.createMarket env C w a p = .ok w' →
      Ran env w accounts (.createMarket p) none w'
  | newOrder {a : BookAccounts} {p : NewOrderParams C} {s : OrderSummary} {w' : World} : p.Fits →
      BookAccounts.parse accounts = .ok a → Processor.newOrder env w a p = .ok (s, w') →
      Ran env w accounts (.newOrder p) (some s) w'
  | consume {m q : Pubkey} {n : Nat} {w' : World} : n < 256 ^ 8 → parseConsume accounts = .ok (m, q) →
      Processor.consumeEvents env C w m q n = .ok w' → Ran env w accounts (.consumeEvents n) none w'
  | cancel {a : BookAccounts} {id : Nat} {s : OrderSummary} {w' : World} : id < 256 ^ 16 →
      BookAccounts.parse accounts = .ok a → Processor.cancelOrder env C w a id = .ok (s, w') →
      Ran env w accounts (.cancelOrder id) (some s) w'
  | close {a : BookAccounts} {target : Pubkey} {w' : World} : parseClose accounts = .ok (a, target) →
      Processor.closeMarket env C w a target = .ok w' → Ran env w accounts .closeMarket none w'
  | massCancel {a : BookAccounts} {ids : List Nat} {s : OrderSummary} {w' : World} : ids.length < 256 ^ 4 →
      (∀ x ∈ ids, x < 256 ^ 16) → BookAccounts.parse accounts = .ok a →
      Processor.massCancelOrders env C w a ids = .ok (s, w') →
      Ran env w accounts (.massCancelOrders ids) (some s) w'

theorem processInstruction_ok_iff {env : Env} {w w' : World} {accounts : List Pubkey} {data : Bytes}
    {r : Option OrderSummary} : Processor.processInstruction env C w accounts data = .ok (r, w') ↔
      ∃ ix : Ix C, decodeIx C data = .ok ix ∧ Ran env w accounts ix r w' := by
  unfold Processor.processInstruction decodeIx
  constructor
  · intro h
    obtain ⟨t, ht, h⟩ := bind_ok h
    rw [bind_of_ok ht]
    unfold decodeParams
    cases t with
    | createMarket =>
      obtain ⟨a, ha, h⟩ := bind_ok h
      obtain ⟨p, hp, h⟩ := bind_ok h
      obtain ⟨w1, h1, h⟩ := bind_ok h
      obtain ⟨rfl, rfl⟩ := Prod.mk.inj (Except.ok.inj h)
      have hf := ((tryFromSlice_ok_iff codec_create).1 hp).2
      exact ⟨.createMarket p, by simp only [hp, Except.map], .create hf.1 hf.2 ha h1⟩
    | newOrder =>
      obtain ⟨a, ha, h⟩ := bind_ok h
      obtain ⟨p, hp, h⟩ := bind_ok h
      obtain ⟨⟨s, w1⟩, h1, h⟩ := bind_ok h
      obtain ⟨rfl, rfl⟩ := Prod.mk.inj (Except.ok.inj h)
      exact ⟨.newOrder p, by simp only [hp, Except.map], .newOrder ((tryFromSlice_ok_iff codec_newOrder).1 hp).2 ha h1⟩
    | consumeEvents =>
      obtain ⟨⟨m, q⟩, ha, h⟩ := bind_ok h
      obtain ⟨p, hp, h⟩ := bind_ok h
      obtain ⟨w1, h1, h⟩ := bind_ok h
      obtain ⟨rfl, rfl⟩ := Prod.mk.inj (Except.ok.inj h)
      exact ⟨.consumeEvents p, by simp only [hp, Except.map], .consume ((tryFromSlice_ok_iff (codec_uint 8)).1 hp).2 ha h1⟩
    | cancelOrder =>
      obtain ⟨a, ha, h⟩ := bind_ok h
      obtain ⟨p, hp, h⟩ := bind_ok h
      obtain ⟨⟨s, w1⟩, h1, h⟩ := bind_ok h
      obtain ⟨rfl, rfl⟩ := Prod.mk.inj (Except.ok.inj h)
      exact ⟨.cancelOrder p, by simp only [hp, Except.map], .cancel ((tryFromSlice_ok_iff (codec_uint 16)).1 hp).2 ha h1⟩
    | closeMarket =>
      obtain ⟨⟨a, tg⟩, ha, h⟩ := bind_ok h
      obtain ⟨w1, h1, h⟩ := bind_ok h
      obtain ⟨rfl, rfl⟩ := Prod.mk.inj (Except.ok.inj h)
      exact ⟨.closeMarket, rfl, .close ha h1⟩
    | massCancelOrders =>
      obtain ⟨a, ha, h⟩ := bind_ok h
      obtain ⟨p, hp, h⟩ := bind_ok h
      obtain ⟨⟨s, w1⟩, h1, h⟩ := bind_ok h
      obtain ⟨rfl, rfl⟩ := Prod.mk.inj (Except.ok.inj h)
      have hf := ((tryFromSlice_ok_iff codec_vecU128).1 hp).2
      exact ⟨.massCancelOrders p, by simp only [hp, Except.map], .massCancel hf.1 hf.2 ha h1⟩
  · rintro ⟨ix, hd, hr⟩
    obtain ⟨t, ht, hd⟩ := bind_ok hd
    rw [bind_of_ok ht]
    have hmap : ∀ {α : Type} {x : Res α} {f : α → Ix C}, x.map f = .ok ix → ∃ y, x = .ok y ∧ f y = ix := by
      intro α x f h; cases x with
      | error e => cases h
      | ok y => exact ⟨y, rfl, Except.ok.inj h⟩
    unfold decodeParams at hd
    cases t with
    | createMarket =>
      obtain ⟨p, hp, rfl⟩ := hmap hd
      cases hr with
      | create f1 f2 ha h1 =>
        dsimp only
        rw [bind_of_ok ha, bind_of_ok hp, bind_of_ok h1]
    | newOrder =>
      obtain ⟨p, hp, rfl⟩ := hmap hd
      cases hr with
      | newOrder f ha h1 =>
        dsimp only
        rw [bind_of_ok ha, bind_of_ok hp, bind_of_ok h1]
    | consumeEvents =>
      obtain ⟨p, hp, rfl⟩ := hmap hd
      cases hr with
      | consume f ha h1 =>
        dsimp only
        rw [bind_of_ok ha]
        dsimp only
        rw [bind_of_ok hp, bind_of_ok h1]
    | cancelOrder =>
      obtain ⟨p, hp, rfl⟩ := hmap hd
      cases hr with
      | cancel f ha h1 =>
        dsimp only
        rw [bind_of_ok ha, bind_of_ok hp, bind_of_ok h1]
    | closeMarket =>
      obtain rfl := Except.ok.inj hd
      cases hr with
      | close ha h1 =>
        dsimp only
        rw [bind_of_ok ha]
        dsimp only
        rw [bind_of_ok h1]
    | massCancelOrders =>
      obtain ⟨p, hp, rfl⟩ := hmap hd
      cases hr with
      | massCancel f1 f2 ha h1 =>
        dsimp only
        rw [bind_of_ok ha, bind_of_ok hp, bind_of_ok h1]

theorem parse_mem {accounts : List Pubkey} {a : BookAccounts} (h : BookAccounts.parse accounts = .ok a) :
    a.market ∈ accounts ∧ a.eventQueue ∈ accounts ∧ a.bids ∈ accounts ∧ a.asks ∈ accounts := by
  unfold BookAccounts.parse at h
  split at h
  · obtain rfl := Except.ok.inj h; simp
  · cases h

theorem parseConsume_mem {accounts : List Pubkey} {m q : Pubkey} (h : parseConsume accounts = .ok (m, q)) :
    m ∈ accounts ∧ q ∈ accounts := by
  unfold parseConsume at h
  split at h
  · obtain ⟨rfl, rfl⟩ := Prod.mk.inj (Except.ok.inj h); simp
  · cases h

theorem parseClose_mem {accounts : List Pubkey} {a : BookAccounts} {t : Pubkey}
    (h : parseClose accounts = .ok (a, t)) :
    a.market ∈ accounts ∧ a.eventQueue ∈ accounts ∧ a.bids ∈ accounts ∧ a.asks ∈ accounts ∧ t ∈ accounts := by
  unfold parseClose at h
  split at h
  · obtain ⟨rfl, rfl⟩ := Prod.mk.inj (Except.ok.inj h); simp
  · cases h

theorem entrypoint_ok_iff {env : Env} {w w' : World} {accounts : List Pubkey} {data : Bytes} :
    entrypoint env C w accounts data = .ok w' ↔ ∃ register r w1 d, accounts.getLast? = some register ∧
      Processor.processInstruction env C w accounts.dropLast data = .ok (r, w1) ∧
      writeRegister (w1 register).data r = .ok d ∧ w' = w1.setData register d := by
  unfold entrypoint
  constructor
  · intro h
    split at h
    · cases h
    rename_i reg hreg
    obtain ⟨⟨r, w1⟩, h1, h⟩ := bind_ok h
    obtain ⟨d, hd, h⟩ := bind_ok h
    obtain rfl := Except.ok.inj h
    exact ⟨reg, r, w1, d, hreg, h1, hd, rfl⟩
  · rintro ⟨reg, r, w1, d, hreg, h1, hd, rfl⟩
    rw [hreg]
    dsimp only
    rw [bind_of_ok h1]
    dsimp only
    rw [bind_of_ok hd]

end
end AOB
