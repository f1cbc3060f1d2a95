import Verif.Proofs.Dispatch
/-
The program sees and changes only the accounts it is passed.
-/
namespace AOB

/-- The accounts `S` as in `w`, all others as in `v`. -/
def World.graft (S : List Pubkey) (v w : World) : World := fun k => if k ∈ S then w k else v k

namespace World
variable {S : List Pubkey} {v w : World} {k : Pubkey}

theorem graft_at (h : k ∈ S) : graft S v w k = w k := if_pos h
theorem graft_out (h : k ∉ S) : graft S v w k = v k := if_neg h

theorem graft_setData (h : k ∈ S) (d : Bytes) : (graft S v w).setData k d = graft S v (w.setData k d) := by
  funext j
  unfold setData graft
  by_cases hj : j = k
  · subst hj; simp [h]
  · simp [hj]

theorem graft_setLamports (h : k ∈ S) (l : Nat) :
    (graft S v w).setLamports k l = graft S v (w.setLamports k l) := by
  funext j
  unfold setLamports graft
  by_cases hj : j = k
  · subst hj; simp [h]
  · simp [hj]

theorem graft_eq (h : ∀ k ∈ S, v k = w k) : graft S v w = v := by
  funext k
  unfold graft
  split
  · exact (h k ‹_›).symm
  · rfl

end World

theorem map_bind {α β γ : Type} (x : Res α) (f : α → Res β) (g : β → γ) :
    (x >>= f).map g = x >>= fun a => (f a).map g := by cases x <;> rfl

theorem map_ite {α β : Type} {c : Prop} [Decidable c] (x y : Res α) (g : α → β) :
    Except.map g (if c then x else y) = if c then Except.map g x else Except.map g y := by split <;> rfl

theorem bind_map' {α β γ : Type} (x : Res α) (g : α → β) (f : β → Res γ) :
    (x.map g >>= f) = x >>= fun a => f (g a) := by cases x <;> rfl

theorem okb {α β : Type} (a : α) (f : α → Res β) : (Except.ok a >>= f : Res β) = f a := rfl

theorem map_ok' {α β : Type} (x : α) (g : α → β) : Except.map g (.ok x : Res α) = .ok (g x) := rfl
theorem map_err' {α β : Type} (e : Err) (g : α → β) : Except.map g (.error e : Res α) = .error e := rfl

section
variable {C : Type} [Pod C] {env : Env} {S : List Pubkey} {v w : World}

open World

theorem checkAccountOwner_graft {k o : Pubkey} {e : AoError} (h : k ∈ S) :
    checkAccountOwner (graft S v w) k o e = checkAccountOwner w k o e := by
  unfold checkAccountOwner; rw [graft_at h]

theorem checkRentExempt_graft {k : Pubkey} (h : k ∈ S) :
    checkRentExempt env (graft S v w) k = checkRentExempt env w k := by
  unfold checkRentExempt; rw [graft_at h]

/-- The four accounts are among those passed. -/
def BookAccounts.In (a : BookAccounts) (S : List Pubkey) : Prop :=
  a.market ∈ S ∧ a.eventQueue ∈ S ∧ a.bids ∈ S ∧ a.asks ∈ S

theorem performChecks_graft {a : BookAccounts} (h : a.In S) :
    a.performChecks env (graft S v w) = a.performChecks env w := by
  obtain ⟨h1, h2, h3, h4⟩ := h
  unfold BookAccounts.performChecks
  rw [checkAccountOwner_graft h1, checkAccountOwner_graft h2, checkAccountOwner_graft h3, checkAccountOwner_graft h4]

theorem createMarket_graft {a : BookAccounts} (h : a.In S) (p : CreateParams) :
    Processor.createMarket env C (graft S v w) a p = (Processor.createMarket env C w a p).map (graft S v) := by
  obtain ⟨h1, h2, h3, h4⟩ := h
  unfold Processor.createMarket
  simp only [checkAccountOwner_graft h2, checkAccountOwner_graft h3, checkAccountOwner_graft h4,
    checkRentExempt_graft h1, checkRentExempt_graft h2, checkRentExempt_graft h3, checkRentExempt_graft h4,
    graft_at h1, graft_at h2, graft_at h3, graft_at h4, map_bind, map_ite, map_err']
  cases EventQueue.checkBufferSize C (w a.eventQueue).data with
  | error e => rfl
  | ok u => simp only [map_bind, map_ok', graft_setData h1, graft_setData h2, graft_setData h3, graft_setData h4]

theorem newOrder_graft [CallbackInfo C] {a : BookAccounts} (h : a.In S) (p : NewOrderParams C) :
    Processor.newOrder env (graft S v w) a p =
      (Processor.newOrder env w a p).map fun x => (x.1, graft S v x.2) := by
  have hc := performChecks_graft (env := env) (v := v) (w := w) h
  obtain ⟨h1, h2, h3, h4⟩ := h
  unfold Processor.newOrder
  simp only [hc, graft_at h1, graft_at h2, graft_at h3, graft_at h4, map_bind, map_ok', graft_setData h1,
    graft_setData h2, graft_setData h3, graft_setData h4]

theorem cancelOrder_graft {a : BookAccounts} (h : a.In S) (id : Nat) :
    Processor.cancelOrder env C (graft S v w) a id =
      (Processor.cancelOrder env C w a id).map fun x => (x.1, graft S v x.2) := by
  have hc := performChecks_graft (env := env) (v := v) (w := w) h
  obtain ⟨h1, h2, h3, h4⟩ := h
  unfold Processor.cancelOrder
  simp only [hc, graft_at h1, graft_at h3, graft_at h4, map_bind, map_ok', graft_setData h1,
    graft_setData h3, graft_setData h4]

theorem massCancelOrders_graft {a : BookAccounts} (h : a.In S) (ids : List Nat) :
    Processor.massCancelOrders env C (graft S v w) a ids =
      (Processor.massCancelOrders env C w a ids).map fun x => (x.1, graft S v x.2) := by
  have hc := performChecks_graft (env := env) (v := v) (w := w) h
  obtain ⟨h1, h2, h3, h4⟩ := h
  unfold Processor.massCancelOrders
  simp only [hc, graft_at h1, graft_at h3, graft_at h4, map_bind, map_ok', graft_setData h1,
    graft_setData h3, graft_setData h4]

theorem consumeEvents_graft {m q : Pubkey} (h1 : m ∈ S) (h2 : q ∈ S) (n : Nat) :
    Processor.consumeEvents env C (graft S v w) m q n = (Processor.consumeEvents env C w m q n).map (graft S v) := by
  unfold Processor.consumeEvents
  simp only [checkAccountOwner_graft h1, checkAccountOwner_graft h2, graft_at h1, graft_at h2, map_bind, map_ok',
    graft_setData h1, graft_setData h2]

theorem closeMarket_graft {a : BookAccounts} (h : a.In S) {t : Pubkey} (h5 : t ∈ S) :
    Processor.closeMarket env C (graft S v w) a t = (Processor.closeMarket env C w a t).map (graft S v) := by
  obtain ⟨h1, h2, h3, h4⟩ := h
  unfold Processor.closeMarket
  simp only [checkAccountOwner_graft h1, graft_at h1, graft_at h2, graft_at h3, graft_at h4, graft_at h5, map_bind]
  cases OrderBook.newSafe C (w a.bids).data (w a.asks).data with
  | error e => rfl
  | ok book => simp only [map_bind, map_ite, map_err', map_ok', graft_setData h1, graft_setData h2, graft_setData h3,
      graft_setData h4, graft_setLamports h1, graft_setLamports h2, graft_setLamports h3, graft_setLamports h4,
      graft_setLamports h5]

variable [CallbackInfo C] [Borsh C]

theorem processInstruction_graft {accounts : List Pubkey} (hS : ∀ k ∈ accounts, k ∈ S) (data : Bytes) :
    Processor.processInstruction env C (graft S v w) accounts data =
      (Processor.processInstruction env C w accounts data).map fun x => (x.1, graft S v x.2) := by
  unfold Processor.processInstruction
  rw [map_bind]
  refine congrArg _ (funext fun t => ?_)
  have hb : ∀ {a}, BookAccounts.parse accounts = .ok a → a.In S := fun h =>
    let ⟨h1, h2, h3, h4⟩ := parse_mem h
    ⟨hS _ h1, hS _ h2, hS _ h3, hS _ h4⟩
  cases t with
  | createMarket =>
    cases ha : BookAccounts.parse accounts with
    | error e => rfl
    | ok a => simp only [okb, createMarket_graft (hb ha), map_bind, bind_map', map_ok']
  | newOrder =>
    cases ha : BookAccounts.parse accounts with
    | error e => rfl
    | ok a => simp only [okb, newOrder_graft (hb ha), map_bind, bind_map', map_ok']
  | consumeEvents =>
    cases ha : parseConsume accounts with
    | error e => rfl
    | ok a =>
      obtain ⟨h1, h2⟩ := parseConsume_mem ha
      simp only [okb, consumeEvents_graft (hS _ h1) (hS _ h2), map_bind, bind_map', map_ok']
  | cancelOrder =>
    cases ha : BookAccounts.parse accounts with
    | error e => rfl
    | ok a => simp only [okb, cancelOrder_graft (hb ha), map_bind, bind_map', map_ok']
  | closeMarket =>
    cases ha : parseClose accounts with
    | error e => rfl
    | ok a =>
      obtain ⟨h1, h2, h3, h4, h5⟩ := parseClose_mem ha
      simp only [okb, closeMarket_graft ⟨hS _ h1, hS _ h2, hS _ h3, hS _ h4⟩ (hS _ h5), map_bind, bind_map', map_ok']
  | massCancelOrders =>
    cases ha : BookAccounts.parse accounts with
    | error e => rfl
    | ok a => simp only [okb, massCancelOrders_graft (hb ha), map_bind, bind_map', map_ok']

theorem entrypoint_graft {accounts : List Pubkey} (hS : ∀ k ∈ accounts, k ∈ S) (data : Bytes) :
    entrypoint env C (graft S v w) accounts data = (entrypoint env C w accounts data).map (graft S v) := by
  unfold entrypoint
  cases hl : accounts.getLast? with
  | none => rfl
  | some reg =>
    have hreg := hS reg (List.mem_of_mem_getLast? hl)
    simp only
    rw [processInstruction_graft (fun k hk => hS k ((List.dropLast_sublist _).subset hk)), bind_map', map_bind]
    refine congrArg _ (funext fun x => ?_)
    simp only [graft_at hreg, map_bind, map_ok', graft_setData hreg]

end
end AOB
