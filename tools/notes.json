{
 "C20": {
  "note": "That the writes of a failed instruction are undone is the Solana runtime's doing, modelled in Market.step; C20_no_write shows in addition that the lookups that fail write nothing themselves."
 },
 "C22": {
  "note": "Never succeeds: proved. The documented error is not always returned: with exactly one order left on the side the code may panic instead (C22_panic_witness is a concrete history)."
 },
 "C29": {
  "note": "Removing an absent key from a one-leaf slab may panic (C29_panic_witness); the theorems say so."
 },
 "C10": {
  "note": "Bound 2^63 transactions (order id side recovery needs it)."
 },
 "C36": {
  "note": "For limit+tick >= 2^64 the ask rounding overflows (C36_overflow)."
 },
 "C45": {
  "note": "C45_mass_cancel_binding_witness: the mass_cancel_orders binding passes the CloseMarket tag (instruction.rs 218)."
 },
 "C46": {
  "note": "C46_short_register_witness shows 41 bytes are not enough; C46_entrypoint is about any successful call of the stand-alone program, C46_call about markets on the chain."
 },
 "C38": {
  "note": "As long as the accounts are not removed: their lamports are zero after closing, so the runtime may remove them and their addresses may be used anew."
 },
 "C39": {
  "note": "C39_create_iff is exact; slab sizes and the owner of the market account are not checked by the code. C39_once holds as long as the accounts are not removed."
 },
 "C40": {
  "note": "close_market checks the owner of the market account only (C40_owners excludes it); that the others are the program's follows from C54's invariant."
 },
 "C41": {
  "note": "C41_isolation assumes that no account used as return register is used in another role (see C56)."
 },
 "C54": {
  "note": "Assumes the behaviour of the Solana runtime stated in Spec/Chain.lean and that return registers are kept apart (see C56)."
 },
 "C56": {
  "note": "A hazard of entrypoint.rs: proved to exist for every market."
 },
 "C57": {
  "note": "Under the bound of 2^63 ids, as C10."
 },
 "C51": {
  "note": "For slab accounts of a prescribed size. C51_wasm_witness: the wasm version stops inside the last level."
 },
 "C52": {
  "note": "parseFill only while head = 0; C52_parseFill_witness is a chain history where it shows a consumed fill instead of the pending one."
 },
 "C58": {
  "note": "Statement lists what does and does not work; witnesses are theorems for all parameters (createMarket, newOrder, closeMarket)."
 },
 "C59": {
  "note": "C59_odd_size_witness: a chain history with a slab of 216 bytes whose callback infos the client misreads."
 },
 "C62": {
  "note": "The reference engine is Spec/Engine.lean (plain lists). The exception (a panic instead of OrderNotFound) is the one of C22."
 },
 "C63": {
  "note": "C63_exception_witness shows that the exception is real."
 },
 "C68": {
  "note": "The embedding program is Spec/Custody.lean (it is not part of /repo): the plainest reading of summaries and events."
 }
}