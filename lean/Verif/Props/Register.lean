import Verif.Props.Chain
import Verif.Proofs.SummaryFits
/-
What a caller of the stand-alone program finds in its return register.
-/
set_option linter.unusedSectionVars false

namespace AOB
namespace Chain

section
variable {C : Type} [Pod C] [CallbackInfo C] [Borsh C] {env : Env} {w w' : World} {accounts : List Pubkey}
  {reg : Pubkey} {data : Bytes}

/-- C46. After a successful call of the stand-alone program, in any world whatever, its last account holds what
`process_instruction` returned for the other accounts, readable by the caller: a summary if the data's first byte says
new order, cancel or mass cancel, and otherwise nothing. Its length, owner and lamports, and all other accounts, are as
`process_instruction` left them. -/
theorem C46_entrypoint (h : entrypoint env C w (accounts ++ [reg]) data = .ok w') :
    ∃ r w1 rest, Processor.processInstruction env C w accounts data = .ok (r, w1) ∧
      decRegister (w' reg).data = some (r, rest) ∧ (w' reg).data.length = (w1 reg).data.length ∧
      (w' reg).owner = (w1 reg).owner ∧ (w' reg).lamports = (w1 reg).lamports ∧ (∀ k, k ≠ reg → w' k = w1 k) ∧
      (r.isSome ↔ data.head? = some 1 ∨ data.head? = some 3 ∨ data.head? = some 5) := by
  obtain ⟨reg', r, w1, d, h1, h2, h3, rfl⟩ := entrypoint_ok_iff.1 h
  obtain rfl : reg = reg' := by simpa using h1
  rw [List.dropLast_concat] at h2
  obtain ⟨ix, hix, hran⟩ := processInstruction_ok_iff.1 h2
  have hfit := hran.fits
  have hd : ∃ rest, decRegister d = some (r, rest) ∧ d.length = (w1 reg).data.length := by
    unfold writeRegister at h3
    dsimp only at h3
    split at h3
    · rename_i hlen
      obtain rfl := Except.ok.inj h3
      refine ⟨(w1 reg).data.drop (encRegister r).length, ?_, ?_⟩
      · cases r with
        | none => rfl
        | some s =>
          simp only [encRegister, List.cons_append, decRegister]
          rw [if_neg (by decide), if_pos trivial, codec_summary.dec_enc s _ (hfit s rfl)]
          rfl
      · rw [List.length_append, List.length_drop]; omega
    · cases h3
  obtain ⟨rest, hd1, hd2⟩ := hd
  refine ⟨r, w1, rest, h2, ?_, ?_, ?_, ?_, ?_, ?_⟩
  · rw [World.setData_data, if_pos rfl]; exact hd1
  · rw [World.setData_data, if_pos rfl]; exact hd2
  · unfold World.setData; rw [if_pos rfl]
  · unfold World.setData; rw [if_pos rfl]
  · intro k hk; unfold World.setData; rw [if_neg hk]
  · have hhead : data.head? = some (Wire.number ix) := by
      rcases (Wire.C45_exact hix).2 with rfl | ⟨rfl, r, rfl⟩ <;> rfl
    rw [hhead]
    cases hran <;> simp [Wire.number]

/-- C46. Conversely, a register of 42 bytes always takes the result: the stand-alone program succeeds whenever
`process_instruction` does, and fails with its error when it fails. -/
theorem C46_register_suffices (hreg : ∀ r w1, Processor.processInstruction env C w accounts data = .ok (r, w1) →
    42 ≤ (w1 reg).data.length) :
    ((∃ w', entrypoint env C w (accounts ++ [reg]) data = .ok w') ↔
      ∃ x, Processor.processInstruction env C w accounts data = .ok x) ∧
    ∀ e, entrypoint env C w (accounts ++ [reg]) data = .error e ↔
      Processor.processInstruction env C w accounts data = .error e := by
  have hx : entrypoint env C w (accounts ++ [reg]) data = (Processor.processInstruction env C w accounts data).bind
      fun x => (writeRegister (x.2 reg).data x.1).map fun d => x.2.setData reg d := by
    unfold entrypoint
    rw [List.getLast?_concat, List.dropLast_concat]
    rfl
  cases hp : Processor.processInstruction env C w accounts data with
  | error e => rw [hx, hp]; simp [Except.bind]
  | ok x =>
    obtain ⟨r, w1⟩ := x
    obtain ⟨ix, _, hran⟩ := processInstruction_ok_iff.1 hp
    obtain ⟨_, d, _, hd, _⟩ := Wire.C46_register r hran.fits (w1 reg).data (hreg r w1 hp)
    rw [hx, hp]
    simp only [Except.bind, hd, Except.map]
    simp

end

section
variable {C : Type} [Pod C] [CallbackInfo C] [Borsh C] {env : Env} {R : Pubkey → Prop} {w : World} {k reg : Pubkey}
  {m : Market C} {data : Bytes} {ix : Ix C} {i : Instr C}

/-- C46 for a market on the chain: a call of the stand-alone program with the market's accounts and a register of 42
bytes does what the market's instruction does, fails with its error if it fails, and leaves its summary in the register
(none for `consume_events`); the market found afterwards is the one the instruction leads to. -/
theorem C46_call (hw : OnChain env C R w) (hR : ¬ R k) (hM : IsMarket env w k) (hm : loadMarket C w k = .ok m)
    (hix : decodeIx C data = .ok ix) (hi : ix.instr = some i) (hreg : R reg) (hlen : 42 ≤ (w reg).data.length) :
    match m.exec i with
    | .error e => entrypoint env C w (own w k ++ [reg]) data = .error e
    | .ok (r, m') => ∃ w' rest, entrypoint env C w (own w k ++ [reg]) data = .ok w' ∧
        decRegister (w' reg).data = some (r, rest) ∧ IsMarket env w' k ∧ loadMarket C w' k = .ok m' ∧
        (r = none ↔ ∃ n, i = .consumeEvents n) := by
  have hL := hw.inv.link k hR hM
  have hx := C55_exact hw hR hM hm hix hi []
  have hs := exact_store hw hR hM hm hix hi []
  rw [List.append_nil] at hx hs
  have hne : ∀ x, ¬ R x → x ≠ reg := fun x hx h => hx (h ▸ hreg)
  have hlen1 : ∀ r w1, Processor.processInstruction env C w (own w k) data = .ok (r, w1) →
      42 ≤ (w1 reg).data.length := by
    intro r w1 h1
    rw [hs] at h1
    cases he : m.exec i with
    | error e => rw [he] at h1; cases h1
    | ok x =>
      rw [he] at h1
      obtain ⟨_, rfl⟩ := Prod.mk.inj (Except.ok.inj h1)
      have : (store w k x.2 reg).data = (w reg).data := by
        unfold store
        rw [World.setData_data, if_neg (hne _ hL.noRegQ).symm, World.setData_data, if_neg (hne _ hL.noRegA).symm,
          World.setData_data, if_neg (hne _ hL.noRegB).symm]
      rw [this]; exact hlen
  have hsuf := C46_register_suffices hlen1
  cases he : m.exec i with
  | error e =>
    rw [he] at hx
    exact (hsuf.2 e).2 hx
  | ok x =>
    obtain ⟨r, m'⟩ := x
    rw [he] at hx
    obtain ⟨w1, g1, g2, g3, g4⟩ := hx
    obtain ⟨w', hw'⟩ := hsuf.1.2 ⟨_, g1⟩
    obtain ⟨r', w1', rest, f1, f2, f3, f4, f5, f6, f7⟩ := C46_entrypoint hw'
    obtain ⟨rfl, rfl⟩ := Prod.mk.inj (Except.ok.inj (g1.symm.trans f1))
    have e1 : ∀ x, ¬ R x → w' x = w1 x := fun x hx => f6 x (hne x hx)
    refine ⟨w', rest, hw', f2, ?_, ?_, ?_⟩
    · unfold IsMarket; rw [e1 k hR]; exact g2
    · rw [loadMarket_congr (by rw [e1 k hR]) (by rw [g3, e1 _ hL.noRegQ]) (by rw [g3, e1 _ hL.noRegB])
        (by rw [g3, e1 _ hL.noRegA]), g4]
    · obtain ⟨ix', hix', hran⟩ := processInstruction_ok_iff.1 g1
      obtain rfl := Except.ok.inj (hix.symm.trans hix')
      cases hran <;> simp only [Ix.instr, Option.some.injEq, reduceCtorEq] at hi <;> subst hi <;> simp

end

/-! ### Concrete cases -/

section
open DemoChain (key w4 w5 onChain_w4)

/-- The order of the demo chain's second market, posted through the stand-alone program: its register has 42 bytes, and
afterwards holds a summary with an order id. -/
example : 42 ≤ (w4 (key 6)).data.length ∧ (decRegister (w5 (key 6)).data).map (fun x => x.1.map fun s =>
    (s.postedOrderId.isSome, s.totalBaseQty, s.totalBaseQtyPosted)) = some (some (true, 4, 4)) := by decide +kernel

example (m : Market Bytes32) (hm : loadMarket Bytes32 w4 (key 11) = .ok m) :=
  C46_call onChain_w4 (k := key 11) (reg := key 6) (by show key 11 ≠ key 6; decide +kernel)
    (Accounts.demo_isMarket (by decide +kernel)) hm
    (Wire.C45_decode (.newOrder (DemoChain.order .bid 4 9 3)) (by unfold Wire.InRange; decide +kernel)) rfl rfl
    (by decide +kernel)

/-! Each theorem applied: the order given to the stand-alone program. -/

example := C46_entrypoint (DemoChain.afterEntry_step (w := w4) (l := DemoChain.accounts' ++ [key 6])
  (d := DemoChain.newOrder .bid 4 9 3) (by decide +kernel))
example := C46_register_suffices (env := DemoChain.env) (C := Bytes32) (w := w4) (reg := key 6)
  (accounts := DemoChain.accounts') (data := DemoChain.newOrder .bid 4 9 3) (fun r w1 h => by
    rw [((Accounts.C41_frame h).1 (key 6) (by decide +kernel))]
    decide +kernel)

end

end Chain
end AOB
