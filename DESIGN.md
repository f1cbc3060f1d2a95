# Formal model of Bonfida/agnostic-orderbook in Lean 4

## 1. What is modelled, and what is not

| layer | Lean module (under `lean/Verif`) | code |
|---|---|---|
| errors, panics, 64-bit arithmetic, FP32 maths, order ids, `round_price` | `Model/Basic.lean` | `state.rs`, `utils.rs`, `error.rs`; `bonfida_utils::fp_math` (external, assumed) |
| critbit slab with its two free lists and slot arrays | `Model/Critbit.lean` | `state/critbit.rs` |
| the slab check of the code base's own tests, `check_invariants` | `Model/Check.lean` | `state/critbit.rs` 496-600 |
| ring-buffer event queue | `Model/EventQueue.lean` | `state/event_queue.rs` |
| matching engine | `Model/Orderbook.lean` | `state/orderbook.rs` |
| the instructions on one market, histories of a market | `Model/Market.lean` | bodies of `processor/*.rs` |
| little-endian bytes, the layout of the accounts, `from_buffer`s, tags, allocation sizes | `Model/Bytes.lean`, `Model/Layout.lean` | `state.rs`, `state/*.rs`, `processor/create_market.rs` |
| instruction data (borsh), bindings, return register | `Model/Wire.lean` | `instruction.rs`, `processor/*.rs` (params), `entrypoint.rs` |
| accounts: owners, keys, lamports, borrows; the processors on raw accounts; dispatch; entry point; `get_spread` on accounts | `Model/Accounts.lean` | `processor.rs`, `processor/*.rs`, `entrypoint.rs`, `utils.rs`; `bonfida_utils::checks` (external, assumed) |
| JavaScript client: slab, event queue and market readers, instruction data and account lists | `Model/Client.lean` | `js/src/{slab,event_queue,market_state,raw_instructions,utils}.ts` |
| the functions exported by the wasm crate, on bytes | `Model/Wasm.lean` | `js/wasm/src/{lib,critbit}.rs` |
| the functions of the wasm crate that nothing calls: inserting and removing nodes | `Model/WasmEdit.lean` | `js/wasm/src/critbit.rs` |
| the functions of the wasm crate that exist in test builds only: its slab check, the search by key | `Model/WasmCheck.lean` | `js/wasm/src/critbit.rs` 166-173, 478-587 |
| account lists of the bindings and the client with their signer and writable flags | `Model/Bindings.lean` | `instruction.rs`, `#[cons(..)]` of `processor/*.rs`, `js/src/raw_instructions.ts` |
| creating a market's accounts, and fetching them | `Model/Setup.lean` | `js/src/bindings.ts`, loaders of `js/src/{market_state,event_queue}.ts`; the system program and the RPC node (external, assumed) |
| the numbers and result codes of the errors | `Model/Errors.lean` | `error.rs` 63-67; `From<ProgramError> for u64` of `solana_program` (external, assumed) |
| the loops of the instructions, with their rounds counted | `Model/Cost.lean` | `critbit.rs` 227-431, `orderbook.rs` 114-359, `processor/*.rs`; shown to return what the uncounted functions return (C93) |
| the `from_buffer` functions with the alignment checks of their casts | `Model/Align.lean` | `state/*.rs`; shown to do the same as those of `Model/Layout.lean` (C92), which all else uses |
| the same program with wrapping arithmetic | `Model/Wrapping.lean` | all functions of the program above that add, subtract, multiply or shift |

Every definition cites the file and lines it models; simplifications are stated there.

Conventions:

* A Rust function with `&mut` becomes a function returning the new value in the monad `Res α = Except Err α`.
  `Err` separates `AoError`s, `ProgramError`s, `panic` (index out of bounds, failed `unwrap`/`assert`, arithmetic
  overflow, double borrow) and `diverge` (loop fuel exhausted).
* Integers are `Nat`; every `+`, `-`, `*` on a fixed-width integer is a *checked* operation whose overflow is `Err.panic`
  (overflow checks on). `as` casts that can truncate are written `% 2^k`. Programs are deployed as release builds, and no
  file of the repository turns overflow checks on there; `Model/Wrapping.lean` is the program in that profile, and C75
  shows that it does the same: on all accounts where the checked build does not panic, and on every history of fewer than
  `2^64` steps. Assumed for the latter: callback infos smaller than 2 GiB and a supply of lamports below `2^64`. They differ
  in `gen_seq_num` at `2^64` and in `round_price` near `2^64` (`C75_round_price`, `C36_overflow`).
  `bonfida_utils::fp_math` is taken to be the same in both profiles.
* Rust loops over the tree take fuel `inner_nodes.len() + 1`; running out is `Err.diverge`, proved unreachable. The
  matching loop is structural on `match_limit`.
* `[T]` slices are `List T`; `x[i]` panics when out of bounds.
* The callback info type `C` of the program is a parameter everywhere (classes `Pod`, `CallbackInfo`, `Borsh`); the stand-alone
  program's `[u8; 32]` is the instance `Bytes32`, used in the concrete cases.

Not modelled: compute budget, heap and stack limits, rent beyond the check in `create_market`, logs (`msg!`), signer/writable flags of accounts (the code reads neither) outside `Model/Bindings`, CPI,
`bonfida_utils` beyond the functions named, key generation and signatures in `js/src/bindings.ts`, JavaScript number formats
beyond `toNumber`.

## 2. How the properties are proved

1. Slab: a ghost crit-bit tree is related to the slot arrays (`Proofs/Tree`, `SlabInv`), with the crit-bit order
   invariant and a partition of slots into tree and free list. `insert_leaf`, `remove_by_key`, `find_min/max`, iteration,
   `get_depth` refine operations on a strictly sorted list (`SlabInsert`, `SlabRemove`, `SlabQuery`, `SlabApi`).
2. Queue: the ring buffer refines a list (`QueueInv`).
3. `Spec/Engine.lean` is a reference market on plain lists. Every instruction of the modelled code refines it, errors and
   panics included (`Refine`, `RefinePost`, `RefineMarket`). Only C62 mentions it; for the other properties it
   is a proof device.
4. `Reach`, `RefInv`: invariant of all reachable markets (from `create_market`, any sequence of instructions, failed ones
   included). `Steps`, `StepFacts`, `View`, `SelfTrade`: the matching loop as a relation and what follows from it.
5. Account bytes: codecs with round trips (`LayoutLemmas`, `BufferLemmas`, `WireLemmas`); the processors on raw accounts
   simulate the structured market (`Load`, `Process`, `OpenClose`, `Dispatch`, `Simulate`); the invariant of the whole chain
   (`ChainInv`, `Tidy`, `QueueHeads`): every live market is a reachable one, and no two share an account.
6. Client (`Proofs/Client`, `Proofs/Wasm`, `Proofs/WasmBytes`, `Proofs/WasmTree`): the readers see the same tree and queue.
7. Locality (`Proofs/Local`): every processor commutes with replacing the accounts it is not passed (`World.graft`).
8. Verdicts (`Proofs/Verdict`): every processor answers by the first condition that holds of a table (`Spec/Verdict`).

The properties are in `Props/`, one theorem or more per property, named `Cxx_*`, stated with the vocabulary of `Spec/`
only: `Spec/Types` (orders, events), `Spec/Observe` (`resting`, `pending`, `emitted`: read with the code base's own
iterators; `Reachable`, `ReachBy`), `Spec/Range` (values that fit the Rust types), `Spec/Containers` (a bag and a FIFO list), `Spec/Compare`,
`Spec/History` (what an observer writes down along a history), `Spec/Relate` (two executions compared), `Spec/Units` (another unit of the quote currency), `Spec/Reprice` (other prices in the same or the reverse order), `Spec/Count` (numbers of orders and events), `Spec/Compete` (how deep a side is), `Spec/Custody` (the funds of an embedding program), `Spec/Wallet` (those of its users), `Spec/Worth` (users who keep to a price), `Spec/Economy` (what takers buy, pay, sell and receive), `Spec/Rebuild` (a reader of what is public), `Spec/Best` (other ways of taking), `Spec/Depth` (what the depth promises), `Spec/Place` (places in the queue, best prices), `Spec/Quiet` (orders that are posted and do nothing else), `Spec/Own` (the own orders that an order meets), `Spec/Chain`
(worlds, `OnChain`), `Spec/RawBytes` (accounts byte by byte), `Spec/Runtime` (what the runtime permits), `Spec/Verdict` (tables of errors), `Spec/Client`, `Spec/Life`, `Spec/Wasm`, `Spec/WasmEdit`, `Spec/WasmCheck`. Concrete cases are next to the theorems (`Spec/Demo`, `Spec/DemoChain`).
`*_witness` theorems show that something does *not* hold.

`tools/manifest.py` regenerates `MANIFEST.json` from the theorem names.

Wrong programs (`seeded/bugs.py`: written by hand; and mechanical one-place edits of the model) are tried in two ways,
results in `seeded/LOG.jsonl`: `tools/seed.py` rebuilds the proofs and lists the theorems that fail; `tools/mutate.py`
runs executable copies of the theorem statements (`tools/monitor.txt` for markets, `tools/monitor_chain.txt` for accounts,
bytes and the client) on random histories of the wrong model, which shows whether a statement as such is violated.

The test suite of the code base is run on the model, with the assertions of the tests (`Tests/Unit.lean`: the tests of
`orderbook.rs`, `event_queue.rs`, `utils.rs`, `market_state.rs`; `Tests/Functional.lean`: `tests/functional.rs`). These are
tests of the model, computed by the kernel; no theorem depends on them. They all come out as in the code base but for
`market_cast`, which is wrong about the code. The random tests of `critbit.rs` (`simulate_*`) compare the slab to a sorted map;
C29 to C31 prove that comparison, for every sequence of operations.

## 3. Trusted base

* Lean 4.33.0's kernel. Every theorem named in `MANIFEST.json` depends on at most the axioms `propext`,
  `Classical.choice`, `Quot.sound` (checked with `#print axioms`). No `sorry`, no `native_decide`, no axioms of our own.
* The reading of the source into the model.
* `bonfida_utils::fp_math` (not in the repository): `fp32_div a b = floor(a*2^32/b)`,
  `fp32_mul_floor a b = floor(a*b/2^32)`, `fp32_mul_ceil a b = ceil(a*b/2^32)`, each `None` when the result does not fit
  in 64 bits (and `fp32_div _ 0 = None`). `bonfida_utils::checks`: compare owner resp. key, return the given error.
* `borsh` 0.10, `bytemuck`: fixed-width little-endian integers, one byte per `bool` and fieldless enum, `u32` length of a
  `Vec`, `try_from_slice` fails on trailing bytes. `borsh` for JavaScript likewise.
* Solana runtime: a failing or panicking instruction has no effect on accounts; an account given twice shares one
  `RefCell`. For the properties on the chain (`Spec/Chain.lean`): only the program changes the data of its accounts or
  takes lamports from them; accounts the program gets are zeroed and have at most 10 MiB; an account without lamports
  may be removed. C81 assumes of the system program and the RPC node what `Model/Setup.lean` says. C74 takes `Spec/Runtime.lean` as the runtime's rules on what an instruction may change. The return registers of the stand-alone program are assumed to be used as nothing else (`R`); C56
  shows what happens otherwise.

## 4. Status

All properties C01 to C115 are proved (`MANIFEST.json`). Where the code does not do what was first written down, the
statement in `properties.jsonl` was changed to what is true and the deviation is proved as a witness:

| property | first version | now |
|---|---|---|
| C10 | fewer than 2^64 posts | fewer than 2^63 transactions: from sequence number 2^63 on, ids no longer tell the side (`C10_limit_witness`) |
| C22, C29 | a missing order is always `OrderNotFound` | never succeeds, but with one order left it may panic (`C22_panic_witness`, `C29_panic_witness`) |
| C36 | limit + tick - 1 fits | limit + tick fits (`C36_overflow`) |
| C38 | for ever | as long as the accounts are not removed |
| C45 | every binding | not `mass_cancel_orders` (`C45_mass_cancel_binding_witness`) |
| C46 | 42 bytes | the constant says 41 (`C46_short_register_witness`) |
| C51 | every slab | slabs of a prescribed size; not the wasm version (`C51_wasm_witness`, C79) |
| C52 | `parseFill` returns the fills | `peekAt` does; `parseFill` only while `head` is 0 (`C52_parseFill_witness`) |

## 5. What was found in the code

1. `state/critbit.rs` 330 `remove_by_key`: when the root is a leaf with another key, the search goes on with `child_h = 0`
   and looks at the key left in slot 0; if that is the key sought (an order removed before), the function panics and the
   caller never returns `OrderNotFound` (C22, C29; this needs an id that was posted before, `C22_never_posted`).
2. `instruction.rs` 218: the binding `mass_cancel_orders` sends the tag of `CloseMarket` (C45). The stand-alone program
   refuses it for want of an account (C74); a program that passes on the register as fifth account would close an empty market.
3. `state/orderbook.rs` 57: `ORDER_SUMMARY_SIZE` is 41, the summary of a posting order needs 42 bytes (C46).
4. `entrypoint.rs`: the register account is written without any check of key, owner or tag: the stand-alone program can
   be made to overwrite a market, queue or slab (C56).
5. `create_market.rs`: slab sizes and the owner of the market account are not checked (C39; a foreign one is refused
   by the runtime only, C74); slabs are told from other
   accounts by one byte of the tag.
6. `close_market.rs`: only the market's owner is checked (safe by the invariant of the chain, C40); a wrong tag panics.
7. `consume_events.rs`: the same key is checked twice; harmless.
8. A `post_only` order that crosses, and an order whose `match_limit` is used up, succeed and post nothing (C14, C15).
9. One `new_order` of a seller can fill the same resting order twice in a row (C08 and C53 are stated accordingly; C96 says when and how often).
10. `mass_cancel_orders`: the totals are `u64` sums that panic on overflow (C24 says exactly when).
11. From sequence number 2^63 on, `get_side_from_order_id` is wrong (C10, C11).
12. No instruction requires a signature: authority is left to the embedding program (C102 says what strangers can do otherwise).
13. Client: `createMarket` data is always refused, `newOrder` puts a length before the callback info, `closeMarket` sends
    the lamports to the authority (C58), which it marks read-only, so that the runtime refuses it; the stand-alone program
    takes the last account for its register and so refuses everything the client sends with wallets there (C74); slabs of odd sizes are misread (C59); `parseFill` ignores the head, `peekAt` the
    count of the queue (C52); `Slab.orderCapacity` is one too small; the `AccountTag` numbers of the client (0..4) are not
    the program's (128..132); the `delete` flag of an out event is always false.
14. `js/wasm` reads an older slab format and panics on every slab of the program; `find_l2_depth`: the size of the last level is incomplete (C79).
15. The test `market_cast` expects an error other than the one the code returns.
16. `orderbook.rs` 181: matching stops at a best bid worth less than one quote unit, with `crossed` still set, so asks at its
    price or lower neither trade nor post. Such a bid is never evicted while it is best and, since its value is looked at
    before its owner, not cancelled by its owner's own orders: on a market with `min_base_order_size * tick_size < 2^32` one
    unit of base bid just above the others stops all selling until it is cancelled (C69).
17. The quote cap of a seller is not monotone: a larger cap can sell less base (C71).
18. `utils.rs` 54 `round_price`: in a release build an ask price above `2^64 - tick_size` is rounded to 0, even if it is a
    multiple of the tick size (C75); with overflow checks it panics (C36).
19. `state/critbit.rs` 496 `check_invariants` (tests only): does not look at a root that is a leaf, nor into the free lists;
    a slab that passes can lose an order with the next insertion (`C76_gap`). What it does establish is in C76.
20. `create_market.rs` accepts slab accounts of a size that can never be read. Such a market can be neither used nor closed,
    and its lamports are lost (C80). The client asks for such slabs (8 bytes) if the order capacity is 0 (C81).
21. `state/critbit.rs` 83: `InnerNode` keeps a `u128` on hosts, where `LeafNode` and the events use `[u64; 2]`. Where `u128` has
    alignment 16, `Slab::from_buffer` panics for every other capacity (C92). On the chain all casts are aligned.
