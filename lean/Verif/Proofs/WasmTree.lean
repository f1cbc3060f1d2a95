import Verif.Proofs.WasmBytes
import Verif.Spec.WasmCheck
/-
Removing a leaf from a tree of the older slab format.
-/
namespace AOB.Wasm

/-- The tree with its root in another slot. -/
def Tree.moved (h : Nat) : Tree → Tree
  | .leaf _ o => .leaf h o
  | .inner _ p k l r => .inner h p k l r

/-- The slots below the root. -/
def Tree.lower : Tree → List Nat
  | .leaf _ _ => []
  | .inner _ _ _ l r => l.slots ++ r.slots

theorem slots_eq (t : Tree) : t.slots = t.slot :: t.lower := by cases t <;> rfl
theorem moved_slots (t : Tree) (h : Nat) : (t.moved h).slots = h :: t.lower := by cases t <;> rfl
theorem moved_slot (t : Tree) (h : Nat) : (t.moved h).slot = h := by cases t <;> rfl
theorem moved_orders (t : Tree) (h : Nat) : (t.moved h).orders = t.orders := by cases t <;> rfl
theorem moved_bits {t : Tree} {h : Nat} (hb : t.Bits) : (t.moved h).Bits := by cases t <;> exact hb
theorem moved_common {t : Tree} {h : Nat} (hb : t.Common) : (t.moved h).Common := by cases t <;> exact hb
theorem slot_mem (t : Tree) : t.slot ∈ t.slots := by rw [slots_eq]; simp

theorem stored_congr {get get' : Nat → Res Node} : ∀ {t : Tree}, (∀ x ∈ t.slots, get' x = get x) → t.Stored get →
    t.Stored get' := by
  intro t
  induction t with
  | leaf h o => intro hx hs; exact (hx h (by simp [Tree.slots])).trans hs
  | inner h p k l r ihl ihr =>
    intro hx hs
    exact ⟨(hx h (by simp [Tree.slots])).trans hs.1, ihl (fun x hx' => hx x (by simp [Tree.slots, hx'])) hs.2.1,
      ihr (fun x hx' => hx x (by simp [Tree.slots, hx'])) hs.2.2⟩

theorem moved_stored {get get' : Nat → Res Node} {t : Tree} {h : Nat} (h1 : get' h = get t.slot)
    (h2 : ∀ x ∈ t.lower, get' x = get x) (hs : t.Stored get) : (t.moved h).Stored get' := by
  cases t with
  | leaf s o => exact h1.trans hs
  | inner s p k l r =>
    exact ⟨h1.trans hs.1, stored_congr (fun x hx => h2 x (by simp [Tree.lower, hx])) hs.2.1,
      stored_congr (fun x hx => h2 x (by simp [Tree.lower, hx])) hs.2.2⟩

theorem chain_congr {get get' : Nat → Res Node} : ∀ {l : List Nat} {head : Nat}, (∀ x ∈ l, get' x = get x) →
    Chain get head l → Chain get' head l := by
  intro l
  induction l with
  | nil => intro head _ _; simp only [Chain]
  | cons h l ih =>
    intro head hx hc
    cases l with
    | nil =>
      obtain ⟨h1, n, h2⟩ := hc
      exact ⟨h1, n, (hx h (by simp)).trans h2⟩
    | cons h' l =>
      obtain ⟨h1, h2, h3⟩ := hc
      exact ⟨h1, (hx h (by simp)).trans h2, ih (fun x hx' => hx x (by simp [hx'])) h3⟩

/-- The slot in front of a chain. -/
theorem chain_cons {get : Nat → Res Node} {l : List Nat} {head key : Nat} (hc : Chain get head l)
    (hk : get key = .ok (if l.length = 0 then .lastFree head else .free head)) : Chain get key (key :: l) := by
  cases l with
  | nil => exact ⟨rfl, head, hk⟩
  | cons h l =>
    have : head = h := by cases l <;> exact hc.1
    subst this
    exact ⟨rfl, hk, hc⟩

theorem chain_head {get : Nat → Res Node} {l : List Nat} {head : Nat} (hc : Chain get head l) (hl : l ≠ []) :
    l.head? = some head := by
  cases l with
  | nil => exact absurd rfl hl
  | cons h l =>
    have : head = h := by cases l <;> exact hc.1
    rw [this]; rfl

theorem perm_move (a b : Nat) (l f : List Nat) : ((a :: b :: l) ++ f).Perm (l ++ a :: b :: f) := by
  simp only [List.cons_append]
  refine List.Perm.symm ?_
  exact List.perm_middle.trans (List.Perm.cons _ List.perm_middle)

theorem loop_absent {get : Nat → Res Node} {k : Nat} : ∀ {c : Tree}, c.Stored get → c.Bits → (∀ o ∈ c.orders, o.id ≠ k) →
    ∃ N, ∀ fuel ph b, N ≤ fuel → removeLoop get k fuel ph c.slot b = .ok none := by
  intro c
  induction c with
  | leaf h o =>
    intro hs _ hk
    refine ⟨1, fun fuel ph b hf => ?_⟩
    obtain ⟨f, rfl⟩ : ∃ f, fuel = f + 1 := ⟨fuel - 1, by omega⟩
    rw [removeLoop]
    show (get h >>= _) = _
    rw [show get h = _ from hs]
    dsimp only [Bind.bind, Except.bind]
    rw [if_neg (hk o (by simp [Tree.orders]))]
  | inner h p kk l r ihl ihr =>
    intro hs hb hk
    obtain ⟨hp, _, _, bl, br⟩ := hb
    obtain ⟨N1, h1⟩ := ihl hs.2.1 bl (fun o ho => hk o (by simp [Tree.orders, ho]))
    obtain ⟨N2, h2⟩ := ihr hs.2.2 br (fun o ho => hk o (by simp [Tree.orders, ho]))
    refine ⟨max N1 N2 + 1, fun fuel ph b hf => ?_⟩
    obtain ⟨f, rfl⟩ : ∃ f, fuel = f + 1 := ⟨fuel - 1, by omega⟩
    rw [removeLoop]
    show (get h >>= _) = _
    rw [hs.1]
    dsimp only [Bind.bind, Except.bind]
    unfold walkDown
    rw [if_pos hp]
    dsimp only
    cases k.testBit (127 - p) with
    | false => exact h1 f _ _ (by omega)
    | true => exact h2 f _ _ (by omega)

/-- What a removal from the tree `c` does: parent, child, other child, and the tree that remains. -/
structure Cut (get : Nat → Res Node) (k : Nat) (c : Tree) (ph ch oh : Nat) (b : Bool) (o : Order Bytes) (t' : Tree) : Prop where
  parent : ∃ p kk, get ph = .ok (if b then .inner p kk oh ch else .inner p kk ch oh)
  child : get ch = .ok (.leaf o.id o.cb o.qty)
  id : o.id = k
  mem : o ∈ c.orders
  other : ∃ n, get oh = .ok n
  stored : ∀ get' : Nat → Res Node, get' ph = get oh →
    (∀ x ∈ c.slots, x ≠ ph → x ≠ ch → x ≠ oh → get' x = get x) → t'.Stored get'
  slot : t'.slot = c.slot
  orders : t'.orders = c.orders.filter (fun x => decide (x.id ≠ k))
  bits : t'.Bits
  common : c.Common → t'.Common
  perm : c.slots.Perm (ch :: oh :: t'.slots)
  inside : ph ∈ t'.slots

theorem stored_root {get : Nat → Res Node} {t : Tree} (h : t.Stored get) : ∃ n, get t.slot = .ok n := by
  cases t with
  | leaf s o => exact ⟨_, h⟩
  | inner s p k l r => exact ⟨_, h.1⟩

theorem loop_present {get : Nat → Res Node} {k : Nat} : ∀ {c : Tree}, c.Stored get → c.Bits → c.slots.Nodup →
    (∃ o ∈ c.orders, o.id = k) →
    (∃ h o, c = .leaf h o ∧ o.id = k ∧ ∀ fuel ph b, removeLoop get k (fuel + 1) ph c.slot b = .ok (some (ph, h, b))) ∨
    ∃ ph' ch oh b' o t', Cut get k c ph' ch oh b' o t' ∧
      ∃ N, ∀ fuel ph b, N ≤ fuel → removeLoop get k fuel ph c.slot b = .ok (some (ph', ch, b')) := by
  intro c
  induction c with
  | leaf h o =>
    intro hs _ _ hk
    obtain ⟨x, hx, rfl⟩ := hk
    simp only [Tree.orders, List.mem_singleton] at hx
    subst hx
    left
    refine ⟨h, x, rfl, rfl, fun fuel ph b => ?_⟩
    rw [removeLoop]
    show (get h >>= _) = _
    rw [show get h = _ from hs]
    dsimp only [Bind.bind, Except.bind]
    rw [if_pos rfl]; rfl
  | inner h p kk l r ihl ihr =>
    intro hs hb hnd hk
    right
    obtain ⟨hp, b0, b1, bl, br⟩ := hb
    obtain ⟨hg, sl, sr⟩ := hs
    simp only [Tree.slots, List.nodup_cons, List.nodup_append, List.mem_append, not_or] at hnd
    obtain ⟨⟨hl, hr⟩, ndl, ndr, hdis⟩ := hnd
    have step : ∀ fuel ph b, removeLoop get k (fuel + 1) ph h b =
        removeLoop get k fuel h (if k.testBit (127 - p) then r.slot else l.slot) (k.testBit (127 - p)) := by
      intro fuel ph b
      rw [removeLoop, hg]
      dsimp only [Bind.bind, Except.bind]
      unfold walkDown
      rw [if_pos hp]
    have keepl : k.testBit (127 - p) = true → l.orders.filter (fun x => decide (x.id ≠ k)) = l.orders := by
      intro ht
      apply List.filter_eq_self.2
      intro x hx
      have := b0 x hx
      rw [decide_eq_true_eq]
      rintro rfl
      rw [ht] at this; cases this
    have keepr : k.testBit (127 - p) = false → r.orders.filter (fun x => decide (x.id ≠ k)) = r.orders := by
      intro ht
      apply List.filter_eq_self.2
      intro x hx
      have := b1 x hx
      rw [decide_eq_true_eq]
      rintro rfl
      rw [ht] at this; cases this
    obtain ⟨x, hx, hid⟩ := hk
    cases hbit : k.testBit (127 - p) with
    | false =>
      have hxl : x ∈ l.orders := by
        simp only [Tree.orders, List.mem_append] at hx
        rcases hx with hx | hx
        · exact hx
        · have := b1 x hx
          rw [hid, hbit] at this; cases this
      rcases ihl sl bl ndl ⟨x, hxl, hid⟩ with ⟨hl', o, rfl, ho, hloop⟩ | ⟨ph', ch, oh, b', o, t', hcut, N, hloop⟩
      · refine ⟨h, hl', r.slot, false, o, r.moved h, ⟨⟨p, kk, hg⟩, sl, ho, by simp [Tree.orders], stored_root sr, ?_,
          moved_slot _ _, ?_, moved_bits br, fun hc => moved_common hc.2.2, ?_, by rw [moved_slots]; simp⟩, 2, ?_⟩
        · intro get' h1 h2
          refine moved_stored h1 (fun y hy => ?_) sr
          have hyr : y ∈ r.slots := by rw [slots_eq]; simp [hy]
          refine h2 y (by simp [Tree.slots, hyr]) ?_ ?_ ?_
          · rintro rfl; exact hr hyr
          · rintro rfl; exact hdis y (by simp [Tree.slots]) y hyr rfl
          · rintro rfl
            rw [slots_eq, List.nodup_cons] at ndr
            exact ndr.1 hy
        · rw [moved_orders]
          simp only [Tree.orders, List.filter_append]
          rw [keepr hbit]
          simp [ho]
        · rw [moved_slots]
          simp only [Tree.slots]
          rw [slots_eq r]
          exact (List.Perm.swap _ _ _).trans (List.Perm.cons _ (List.Perm.swap _ _ _))
        · intro fuel ph b hf
          obtain ⟨f, rfl⟩ : ∃ f, fuel = f + 1 + 1 := ⟨fuel - 2, by omega⟩
          show removeLoop get k (f + 1 + 1) ph h b = _
          rw [step, hbit]
          exact hloop f h false
      · refine ⟨ph', ch, oh, b', o, .inner h p kk t' r, ⟨hcut.parent, hcut.child, hcut.id, by simp [Tree.orders, hcut.mem], hcut.other, ?_,
          rfl, ?_, ⟨hp, ?_, b1, hcut.bits, br⟩, fun hc => ⟨fun y hy => hc.1 y ?_, hcut.common hc.2.1, hc.2.2⟩, ?_, by simp [Tree.slots, hcut.inside]⟩, N + 1, ?_⟩
        · intro get' h1 h2
          have inl : ∀ y, y = ph' ∨ y = ch ∨ y = oh → y ∈ l.slots := by
            intro y hy
            apply hcut.perm.symm.subset
            rcases hy with rfl | rfl | rfl
            · simp [hcut.inside]
            · simp
            · simp
          have out : ∀ y, y ∉ l.slots → y ≠ ph' ∧ y ≠ ch ∧ y ≠ oh := by
            intro y hy
            exact ⟨fun e => hy (inl y (Or.inl e)), fun e => hy (inl y (Or.inr (Or.inl e))),
              fun e => hy (inl y (Or.inr (Or.inr e)))⟩
          refine ⟨?_, hcut.stored get' h1 (fun y hy => h2 y (by simp [Tree.slots, hy])), ?_⟩
          · obtain ⟨o1, o2, o3⟩ := out h hl
            rw [h2 h (by simp [Tree.slots]) o1 o2 o3, hg, hcut.slot]
          · refine stored_congr (fun y hy => ?_) sr
            obtain ⟨o1, o2, o3⟩ := out y (fun hyl => hdis y hyl y hy rfl)
            exact h2 y (by simp [Tree.slots, hy]) o1 o2 o3
        · simp only [Tree.orders, List.filter_append]
          rw [keepr hbit, hcut.orders]
        · intro y hy
          rw [hcut.orders] at hy
          exact b0 y (List.mem_of_mem_filter hy)
        · rw [hcut.orders] at hy
          rcases List.mem_append.1 hy with hy | hy
          · exact List.mem_append_left _ (List.mem_of_mem_filter hy)
          · exact List.mem_append_right _ hy
        · simp only [Tree.slots]
          refine (List.Perm.cons h (hcut.perm.append_right r.slots)).trans ?_
          simp only [List.cons_append]
          exact (List.Perm.swap _ _ _).trans (List.Perm.cons _ (List.Perm.swap _ _ _))
        · intro fuel ph b hf
          obtain ⟨f, rfl⟩ : ∃ f, fuel = f + 1 := ⟨fuel - 1, by omega⟩
          show removeLoop get k (f + 1) ph h b = _
          rw [step, hbit]
          exact hloop f h false (by omega)
    | true =>
      have hxr : x ∈ r.orders := by
        simp only [Tree.orders, List.mem_append] at hx
        rcases hx with hx | hx
        · have := b0 x hx
          rw [hid, hbit] at this; cases this
        · exact hx
      rcases ihr sr br ndr ⟨x, hxr, hid⟩ with ⟨hr', o, rfl, ho, hloop⟩ | ⟨ph', ch, oh, b', o, t', hcut, N, hloop⟩
      · refine ⟨h, hr', l.slot, true, o, l.moved h, ⟨⟨p, kk, hg⟩, sr, ho, by simp [Tree.orders], stored_root sl, ?_,
          moved_slot _ _, ?_, moved_bits bl, fun hc => moved_common hc.2.1, ?_, by rw [moved_slots]; simp⟩, 2, ?_⟩
        · intro get' h1 h2
          refine moved_stored h1 (fun y hy => ?_) sl
          have hyl : y ∈ l.slots := by rw [slots_eq]; simp [hy]
          refine h2 y (by simp [Tree.slots, hyl]) ?_ ?_ ?_
          · rintro rfl; exact hl hyl
          · rintro rfl; exact hdis y hyl y (by simp [Tree.slots]) rfl
          · rintro rfl
            rw [slots_eq, List.nodup_cons] at ndl
            exact ndl.1 hy
        · rw [moved_orders]
          simp only [Tree.orders, List.filter_append]
          rw [keepl hbit]
          simp [ho]
        · rw [moved_slots]
          simp only [Tree.slots]
          rw [slots_eq l]
          refine (List.Perm.cons h List.perm_append_comm).trans ?_
          simp only [List.cons_append, List.nil_append]
          exact (List.Perm.swap _ _ _).trans (List.Perm.cons _ (List.Perm.swap _ _ _))
        · intro fuel ph b hf
          obtain ⟨f, rfl⟩ : ∃ f, fuel = f + 1 + 1 := ⟨fuel - 2, by omega⟩
          show removeLoop get k (f + 1 + 1) ph h b = _
          rw [step, hbit]
          exact hloop f h true
      · refine ⟨ph', ch, oh, b', o, .inner h p kk l t', ⟨hcut.parent, hcut.child, hcut.id, by simp [Tree.orders, hcut.mem], hcut.other, ?_,
          rfl, ?_, ⟨hp, b0, ?_, bl, hcut.bits⟩, fun hc => ⟨fun y hy => hc.1 y ?_, hc.2.1, hcut.common hc.2.2⟩, ?_, by simp [Tree.slots, hcut.inside]⟩, N + 1, ?_⟩
        · intro get' h1 h2
          have inr : ∀ y, y = ph' ∨ y = ch ∨ y = oh → y ∈ r.slots := by
            intro y hy
            apply hcut.perm.symm.subset
            rcases hy with rfl | rfl | rfl
            · simp [hcut.inside]
            · simp
            · simp
          have out : ∀ y, y ∉ r.slots → y ≠ ph' ∧ y ≠ ch ∧ y ≠ oh := by
            intro y hy
            exact ⟨fun e => hy (inr y (Or.inl e)), fun e => hy (inr y (Or.inr (Or.inl e))),
              fun e => hy (inr y (Or.inr (Or.inr e)))⟩
          refine ⟨?_, ?_, hcut.stored get' h1 (fun y hy => h2 y (by simp [Tree.slots, hy]))⟩
          · obtain ⟨o1, o2, o3⟩ := out h hr
            rw [h2 h (by simp [Tree.slots]) o1 o2 o3, hg, hcut.slot]
          · refine stored_congr (fun y hy => ?_) sl
            obtain ⟨o1, o2, o3⟩ := out y (fun hyr => hdis y hy y hyr rfl)
            exact h2 y (by simp [Tree.slots, hy]) o1 o2 o3
        · simp only [Tree.orders, List.filter_append]
          rw [keepl hbit, hcut.orders]
        · intro y hy
          rw [hcut.orders] at hy
          exact b1 y (List.mem_of_mem_filter hy)
        · rw [hcut.orders] at hy
          rcases List.mem_append.1 hy with hy | hy
          · exact List.mem_append_left _ hy
          · exact List.mem_append_right _ (List.mem_of_mem_filter hy)
        · simp only [Tree.slots]
          refine (List.Perm.cons h (hcut.perm.append_left l.slots)).trans ?_
          refine (List.Perm.cons h (List.perm_append_comm)).trans ?_
          simp only [List.cons_append]
          refine (List.Perm.swap _ _ _).trans (List.Perm.cons _ ((List.Perm.swap _ _ _).trans (List.Perm.cons _ ?_)))
          exact List.Perm.cons _ List.perm_append_comm
        · intro fuel ph b hf
          obtain ⟨f, rfl⟩ : ∃ f, fuel = f + 1 := ⟨fuel - 1, by omega⟩
          show removeLoop get k (f + 1) ph h b = _
          rw [step, hbit]
          exact hloop f h true (by omega)

end AOB.Wasm
