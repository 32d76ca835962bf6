# Formal model of rustaceanrob/bip324 in Lean 4

## 1. What is modelled

| Lean module | Rust source |
|---|---|
| `Verif/Model/Base.lean` | integer casts, checked arithmetic, slices, outcome type (`ok`/`err`/`panic`) |
| `Verif/Model/Prims.lean` | the *interface* of the dependencies `chacha20-poly1305`, `secp256k1`, `bitcoin_hashes` (not in /repo) |
| `Verif/Model/FsCipher.lean` | `protocol/src/fschacha20poly1305.rs` |
| `Verif/Model/Packet.lean` | `protocol/src/lib.rs` (packet types, ciphers, session, key material) |
| `Verif/Model/Handshake.lean` | `protocol/src/handshake.rs` |
| `Verif/Model/Transport.lean` | `std::io::{Read,Write,Chain}`, tokio `AsyncRead`/`AsyncWrite`: `read_exact`, `write_all`, `flush` over scripts of answers |
| `Verif/Model/Io.lean` | `protocol/src/io.rs`, and the handshake of `protocol/src/futures.rs` |
| `Verif/Model/Futures.lean` | the session reader and writer of `protocol/src/futures.rs`, at the level of single polls |
| `Verif/Model/Traffic.lean` | `traffic/src/lib.rs` (shaper, statistics) |
| `Verif/Model/TrafficIo.lean` | `traffic/src/io.rs` as a transition system of two threads |
| `Verif/Model/TrafficFutures.lean` | `traffic/src/futures.rs` as a transition system of application and task |
| `Verif/Model/Ratio.lean` | the `f64` ratio of the statistics |
| `Verif/Model/SansIo.lean` | the examples in the documentation of `protocol/src/handshake.rs` |
| `Verif/Model/Fuzz.lean` | `fuzz/fuzz_targets` |
| `Verif/Model/AnyTransport.lean` | `protocol/src/io.rs`, `protocol/src/futures.rs` over any transport |
| `Verif/Model/BufReader.lean` | `BufReader` of std and tokio as used in `protocol/src/lib.rs:19-99`, `protocol/examples/bufreader.rs` |
| `Verif/Model/BufExample.lean` | the scenarios, server and clients of `protocol/examples/bufreader.rs` |
| `Verif/Spec/*.lean` | independent specifications (BIP-324 text), which the model does not import; `Toy` is a small lawful instance for the examples |
| `Verif/Concrete/*.lean` | the functions of the dependencies themselves: RFC 8439, RFC 5869, secp256k1 with ElligatorSwift, and the repository's test vectors |
| `Verif/Concrete/{Prime,Field,Group,Ecdh}.lean` | the arithmetic of `Concrete/Secp256k1.lean` related to Mathlib's group of points |
| `Verif/Lemmas/*.lean` | supporting lemmas |
| `Verif/Props/*.lean` | the property theorems; the name begins with the property's id |

Conventions: a `&mut` argument becomes an extra result; `Result` becomes `Outcome.ok/err`,
a panic is the explicit value `Outcome.panic`; fixed size arrays are byte lists whose length
is a hypothesis where the Rust type guarantees it; `usize` is `Nat` except where the code
subtracts (underflow is modelled); `u32`/`u64` counters are `Nat`s with explicit overflow
behaviour depending on the build profile (panic with overflow checks, wrap without).

Not modelled: the tests that need a node beyond what `Model/Tests.lean` has (the process of the node, the version message),
`fmt` of `Debug`, `source()` of the errors, logging, the feature flags other than by modelling `std` and `tokio` both enabled, the
entropy source (the RNG is any function or list of values), and the internals of the dependencies, `std` and tokio beyond the
documented behaviour used in `Transport.lean`, `TrafficIo.lean` and `TrafficFutures.lean`. The tests, benchmarks and the fuzz
targets are modelled in `Tests.lean`, `UnitTests.lean` and `Fuzz.lean`, the texts of the errors in `Errors.lean`.

## 2. How each property is stated and proved

* C01, C02 - matching states are *equal* states; one-step round trip then induction on the packet list.
* C03 - from the AEAD law `open = some p <-> seal p = (c,t)` lifted through `decrypt`.
* C04, C05, C06, C14, C15 - direct case analysis of the modelled functions for all inputs.
* C07, C08 - closed form of the nonce / position at index n (induction), then injectivity arithmetic.
* C09, C10 - refinement of the mutable cipher to the indexed BIP-324 specification (`Verif/Spec/Bip324.lean`).
  C10 only for fewer than 2^32 packets (the code's chunk counter is u32): `_partial` plus a theorem showing the deviation.
* C11 - arithmetic of little endian decoding.
* C12 - false of the code for >= 2^24 bytes: negation proved, `_partial` below.
* C13 - round trip proved; ignore-bit reading is false of the code: negation proved, `_partial`.
* C14 - false below 16 bytes (panic / wrong error): negation proved, `_partial`.
* C16, C17, C20, C23, C24 - symbolic execution of both handshakes, induction over decoys.
* C18, C19, C21, C22 - exact characterisation of each function.
* C25-C28, C33, C34, C43, C44 - readers/writers are arbitrary scripts of read/write results; induction over scripts.
* C29, C32, C35 - false in part; negation + `_partial`.
* C30, C31 - async reader as a poll-level state machine; invariant relating machine state, consumed bytes and delivered payloads.
* C36, C38, C40, C41, C45 - interleaving transition systems, invariant on wire ++ pending bytes.
* C37 - interval reasoning over an arbitrary in-range RNG.
* C39 - commutativity of atomic steps, induction over interleavings.
* C42 - projection of an interleaved history on each direction.
* C46-C48 - soundness against arbitrary bytes: `Spec/Transcript.lean` defines packet streams and handshake
  transcripts; reading is inverted step by step (`Lemmas/Accept.lean`, `Lemmas/HandshakeAccept.lean`).
* C49 - unforgeability is a hypothesis on the delivered bytes (`Spec.Unforged`), not a law of the AEAD: for the
  sealed packet numbers, nothing in the stream opens to anything but what was sealed. The rest follows from C46.
* C50 - a write is the step machine `WProc` also used for the shaping crate; a cancelled call is one stopped after
  some number of steps. C50_driven ties the machine to `writeAsync`.
* C51, C52 - the invariants of C36, plus ranking arguments: a job ends after finitely many steps of the thread
  or task that executes it (`JobPc.ends`).
* C53 - Pratt certificates for the two primes; the Jacobian formulas on numbers are related to Mathlib's group law on
  the points of `y² = x³ + 7` over `ZMod p`; the order of the generator is one kernel computation; that every encoding
  is valid is the identity behind Skalba's map (the product of the three candidates is a square).
* C54 - `V1_PREFIX` of BIP-324 as the specification, C48 for the outcome; the rest is false and shown by counterexample.
* C55 - the bytes a write in progress still owes are added to those on the wire; with the record, this is an invariant
  of every step. Equality from the serialisation of C36 and the marked packets.
* C56 - the network of C44 with a capacity for each direction; a party reads only when it has written all that is due.
  An invariant on the four byte counts gives both directions of an exact condition on the capacities.
* C57 - a relation between two states that are equal but for keys, contents and types is kept by every step of both.
* C58 - the packet lengths on the wire, read off where the number of bytes grows, are an invariant of every step; they
  are pairs of a decoy and a payload, so two sessions that look the same wrote payloads of the same lengths.
* C59 - what any sender puts on the wire after its flight is a list of packets of its cipher (`Sent`); every receiver
  of the matching cipher delivers such a list.  The laws of the primitives come from C53.
* C60 - `f64` numbers as mantissa and exponent; the specification is IEEE 754 (no number is nearer, ties to even). The
  mantissa is the nearest whole number for the one exponent that gives it 53 bits; monotonicity does the rest.
* C61 - `Spec/Reference.lean` is the Python program of BIP-324 in Lean, with its mutable classes. Both it and the model
  are refined to the same indexed packets (`Spec.packetStream`) and transcripts, in which the two meet.
* C62 - `Spec/Judge.lean` defines the verdict on any stream as an inductive relation with three parameters (longest
  packet, what counts as a decoy, patience with garbage). The relation is a total function; the library is proved to
  follow it with its parameters, the reference implementation with those of BIP-324, and the streams on which the two
  instances differ are determined exactly (`judge_iff`).
* C63 - `Model/SansIo.lean` models the two loops that the documentation gives as examples (indexing out of range is a
  panic, as in Rust). They are compared with the verdict of `Spec/Judge.lean` under the examples' own rules: no limit on
  lengths, ignore bit read as the library reads it.
* C64 - what `into_inner` returns is compared with the stream that the reader was given (`packetStream`), using the
  invariants of C46; the reader that is made of the parts again is `AsyncReader.resume`.
* C65 - `Model/Fuzz.lean` models the two fuzz targets as functions of the fuzzer's input; the results are those of C17 to
  C21 at the state the target has built.
  `C65_reported`: no result of a target is a panic, for any primitives.
* C66 - `Model/AnyTransport.lean` runs the same I/O code over any state machine; by induction over the rounds of each loop
  the answers it gave form a script on which the script model does the same, whatever follows in the script.
  Conversely a script is a state machine (`Lemmas/ScriptConn.lean`), over which the code ends with the script's result; and
  results only appear with more fuel, they never change (`Lemmas/Fuel.lean`).
* C67 - `Concrete/Poly1305.lean`: 2^130 - 5 is prime (Pratt certificate), messages are different polynomials over that
  field, a polynomial has few roots, so few keys give two messages two given tags. `Lemmas/Ask.lean`: a read or poll asks
  the AEAD at most once, so against an AEAD that accepts only what was sent the questions are fixed, and the real run is
  this run unless one of its at most `k` questions is a forgery. What remains an assumption is that block 0 of the
  ChaCha20 key stream looks random (and that the attacker does not know it).
* C68 - a script is flattened into events (a byte, an empty read, a failure, a `Pending`); each loop of the library is a
  function of the events alone (`Lemmas/Segments.lean`). For `BufReader`, a state machine over any transport
  (`Model/BufReader.lean`), the invariant "answers below = answers above ++ buffer, as events" is carried through all the
  code (`Lemmas/Buffered.lean`), and C66 turns the run into scripts.
* C69 - `Model/Halves.lean` cuts every call of both halves at the calls of the transport, so that anything can happen in
  between. Invariant (`Lemmas/HalvesRun.lean`): what was answered so far, one script for each half, makes the whole calls of the
  script model do the same, whatever follows. C46, C47, C50 and C36 then say what the bytes are.
* C70 - `Spec/Errors.lean` has the table and `Fails` (some call ends in the error); soundness by the code of each function and,
  for the shaped protocol, by an invariant of all schedules; every entry is attained by a run of the toy instance. The
  sources of errors (`ErrNode.source`) are followed with an inductive relation. Partial: the comments are not all right (finding 23).
  `ErrNode.text` has all `Display` texts; `C70_reason`, `C70_reason_counterexample` (type `Error` prints `{:?}`), `C70_stops`.
* C71 - `Spec/Link.lean` puts two ends (Model/Halves) on two channels that hold a limited number of bytes; programs are two
  threads or one thread with a list of calls. Invariant of a direction: what the writer has not sent, with what is on the way, is
  what the reader has not used. A measure bounds the steps; the theorems about getting stuck compare the counts of returned calls.
* C72 - `Spec/ShapedLink.lean` does the same with two shaped parties (application thread, decoy thread, reader). Invariant of a
  direction: a list of the packets begun, whose genuine payloads are those of the calls that returned and perhaps of the one in
  progress. "Can go on" is the existence of a continuation from every state that can be reached: a mutex that is not fair can
  starve a thread, so more cannot be had. Blocking is a set of states that no step but one of the peer's reader leaves.
* C73 - `Model/Tests.lean` models the tests and benchmarks themselves: a panic or a failed assertion is `none`. Not modelled:
  the process of the node, the contents of the version message and its deserialisation.
  `C73_regtest_writer` compares a run with any writer with the run of one that never fails, step by step.
* C74 - an attacker is any function of the primitives and of what it sees. That it does not know a key is the assumption that
  its result is the same under all primitives that agree except under that key and nonce (`Spec.Blind`); this takes the place of
  the computational assumption that an old key cannot be found from its successor. The proof renames the plaintexts under the
  keys and nonces of the hidden packets, which keeps the laws of the primitives and, as nonces do not repeat, all else.
* C75 - `Spec/AsyncLink.lean` does what C72 does with two asynchronous shaped parties. Invariant of a direction: the commands in
  the queue are the last calls, numbered, and the packets begun have the genuine payloads of the first ones. The queue is
  unbounded as in the code; a dropped future leaves its command there.
* C76 - `Model/UnitTests.lean` models the unit tests as functions of their literals; `none` is a panic. Each theorem is, where
  possible, an equivalence: what has to hold for the test to pass.
* C77 - `Model/Clone.lean` has programs over a list of ciphers with `clone` and `encrypt`. The specification only counts
  (`cloneCalls`, `Linear`). The outputs are related to `Spec.packet` with the counted number; the leak is the cancellation
  of equal keystreams in the RFC 8439 instance.
* C78 - `Model/Cost.lean` has ghost functions beside the model: the windows one search compares, and the vectors that one
  `read` (synchronous) or one poll (asynchronous) allocates. `C78_search`: the cost of one search. `C78_searches` and
  `C78_searches_attained`: at most 4096 searches and 8,390,656 windows in a handshake, and a peer that causes them.
  `C78_packets`, `C78_decoys_unlimited`: memory in the handshake is paid for in bytes sent, but for one packet, and the
  number of decoys has no limit. `C78_read_bound`, `C78_poll_bound`: the memory of one read, the second as an invariant of
  all polls. `C78_read_chosen`, `C78_poll_attained`: three bytes choose the size. `C78_too_big_late`: the limit of
  `decrypt_to_vec` is applied after the packet has been received. Growth of `Vec` beyond the bytes asked for and the
  copying that goes with it are not modelled.
* C79 - `Model/Timed.lean` adds a clock to both shaped systems: a schedule is a list of steps and waits of any length, the
  decoy thread's sleep ends no earlier than 100 ms after it began, and a tick is ready once its deadline has passed.
  `C79_refines`, `C79_complete`, `C79_task_refines`, `C79_task_complete`: nothing but time is added, so the theorems on
  all runs carry over. `C79_spacing`, `C79_rate`: attempts of the thread. `C79_bytes`, `C79_task_bytes`: what can be sent
  in a time, from a potential (`JobPc.space`) that no step increases. `C79_drop`: how long `drop` waits. `C79_task_rate`,
  `C79_burst`: the ticks of the task, counted but not spaced. `C79_grid`, `C79_task_grid`: when nothing else takes time
  (`Prompt`), the background sender is on a grid of 100 ms.
* C80 - `Model/Relaxed.lean` gives each operation its variable, and a system in which the load at traffic/io.rs:220 reads
  what the thread has been shown. `RelaxedExec` and `RelaxedLoad` (Props/Relaxed.lean) specify relaxed accesses: one order
  per variable, program order within a thread, a load not older than the thread's own operations. `C80_final` builds the
  single order from that of the last-activity stores; `C80_totals` follows with `C39_totals`; `C80_load` by counting.
  `C80_delayed` is a simulation that moves the drop to the moment the store is seen, `C80_one_more` and `C80_terminates`
  follow with C40. `C80_ratio_counterexample` and `C80_drop_counterexample` are the negations. Out-of-thin-air values do
  not arise: no value stored depends on one loaded.
* C81 - `Model/PairTests.lean` makes each test a list of statements (`write`, `expect`, `answer`, `until`) performed by a
  driver, which is the synchronous or the asynchronous `Protocol`. `Props/PairTests.lean` specifies a test by `converse`
  (what is written, what is left of the packets) and `passes`; `C81_tests` shows by induction over the statements that
  both drivers do that, from what C15, C27, C58 say of one read and one write; asynchronous reads are awaited, with the
  script's length as bound on the polls. `C81_pingpong` puts two programs together, `C81_regtest` and `C81_integration`
  say what their verdicts mean, `C81_shaped` is C59 for the shaped protocols, `C81_async_functions`, `C81_async_drop` use
  C56 and `C81_async_too_big` C27.
* C82 - `Model/BufExample.lean` follows `protocol/examples/bufreader.rs` function by function (scenarios, server, the two
  clients); time and printing are left out, and the calls of the transport are counted instead, with the log of answers
  that the model of any transport keeps. The lower bounds are by paying for each payload: of the 20 or more bytes of a
  packet the length and the rest are asked for in separate calls, and what came with the garbage pays three bytes a call
  (`C82_plain_*`); the handshake leaves at most 255 bytes because the terminator is searched for after each chunk of 256
  (`C82_whole_*`). The upper bound is an invariant of the BufReader: bytes received in full buffers, or the end of a piece
  (`Frugal`). The exact numbers are by a view of the reader (calls made, buffer, bytes arrived) in which `read_exact` is
  one step (`View.exact`), whose cost is the specification `bufCost`. The numbers of the scenarios are of the read loop,
  from a session whose handshake is over and with an empty buffer, given that its reads succeed; that tokio's buffer has
  8192 bytes is taken from its documentation.
* C83 - `Props/Chance.lean`. C26 (and all that is built on it) assumes that no garbage terminator occurs early and that no
  key begins with the magic. Here both are counted. `Spec.withTerminators P t` is the cryptography `P` with the two
  terminators drawn, everything else derived as before; `UsablePair` is `HonestPair` without the two hypotheses on the
  terminators, `HandshakeWorks` the conclusion of C26. For every garbage and every place in it exactly one terminator
  occurs there (`early_unique`, `early_exists`), so `C83_early` counts at most one per byte; `C83_handshake` is the union
  of both sides and `C83_negligible` its value for garbage within the limit. `C83_early_none`, `C83_unlucky`: the
  hypotheses cannot be dropped, with a handshake that fails. `C83_v1`, `C83_v1_standard`: exact counts of the keys taken
  for V1 by the code and by BIP-324. Counting stands for chance: nothing is said about the distribution of what HKDF and
  ElligatorSwift give.
* C84 - `Model/BufWriter.lean`, `Lemmas/BufWriter.lean`, `Props/BufWriter.lean`. `Conn.Buffers W passed held` are the laws
  of a writer that keeps bytes back (what it took is what left plus what it holds, in order; a successful flush leaves
  nothing held); `bufWriter` is `std::io::BufWriter` or `tokio::io::BufWriter` over any transport (`flush_buf`, the direct
  write of large pieces, `write_all` of std that passes the rest through) and `C84_bufwriter`, `C84_bufwriter_poll` show
  the laws for it. `Conn.strict` is the same transport with a peer that is silent as long as something is held:
  `C84_handshake_sync/async` and `C84_ok_sync/async` say that nothing changes over it, which fails if a single flush is
  left out. `C84_connection_sync/async`: the bytes that have left are the BIP-324 transcript. `C84_calls_sync/async`:
  whatever happens, what has left plus what is held is what was taken. `C84_transient_sync/async` against
  `C35_counterexample`, and `C84_counterexample` for packets that do not fit. std retries `Interrupted`, tokio does not;
  `Seek`, `into_inner` and the flush on drop are not modelled.
* C85 - `Model/PollWriter.lean`, `Props/PollWriter.lean`. `pollWriteFut` is one poll of the future of
  `ProtocolWriter::write` over any `PollSink` (its state is the `WProc` of C50), `tokioBufWriter` is
  `tokio::io::BufWriter` with `flush_buf` that remembers in `written` how far it got when the transport is pending, and
  cuts off what it wrote when the transport fails. `C85_one` for any transport, `C85_driven` ties the polls to `writeN`,
  the `.await` model used everywhere else, `C85_room`, `C85_history`, `C85_delivered`, `C85_room_total` for the
  `BufWriter`, `C85_counterexample` for the limit. Assumed of the transport: `PollSink.Sane`, the contract of `AsyncWrite`
  that no more is taken than was given (tokio would panic). Not modelled: wakers (only the answers of the polls),
  `poll_shutdown`, vectored writes.
* C86 - `Props/Stranger.lean`. The peer is any `Conn` (C66). `receiveKey_withTerminators` and
  `sendVersion_withTerminators`: nothing that is sent depends on the terminator waited for, so up to the moment it is
  found the conversation is one and the same for all of them; `garbageLoopN_windows`: all terminators that can be found
  occur in one string, at one of 4096 places. `C86_blind` counts them for a given own terminator, `C86_chance` over both,
  `C86_reflection` and `C86_playback` are the two best known cases. That HKDF gives a random terminator to those who do
  not know the secret is the assumption behind drawing it. What such a peer could do with the terminator alone is not
  counted: it would have to forge a packet as well (C67).
* C87 - `Props/Middle.lean`, `Props/MiddleChance.lean`. `Spec.Untouched`: no part of the bytes opens under a packet
  number, with nothing or with what stands in front of a terminator as associated data, except to what was sealed under
  that number; `C87_sync` and `C87_async` follow from C47 (what is accepted is a transcript) and C49 (the session).
  `C87_chance_sync` and `C87_chance_async`: the one-time keys of the peer's direction are drawn (`Spec.lotteryDir`); all
  draws which accept read the same garbage and the same messages (`stream_reads`, `garbage_unique`), these differ from
  what was sent at one packet number, and few keys give that packet its tag (`forge_count`). `C87_not_never` is a key for
  which a changed bit of the garbage goes unnoticed. For the packets after the handshake see C67.
* C88 - `Props/Relay.lean`. `HandDriven`: the public functions of `Handshake` were called up to a session, with any
  buffers and any bytes. `Spec.idMessages` are the five messages a party hashes for its id. `C88_id_binds`: the network,
  the roles and the two keys can be read off from them, so equal ids with different keys give two different messages with
  the same SHA-256 at one of the five steps (`key_binds`); that a collision exists somewhere would be no statement at all,
  it exists by counting, therefore the theorem says where. `C88_id_agrees`: equal ids without an attacker. `C88_relay`,
  `C88_relay_async`: two sessions of C59, one with each victim; `C88_relay_counterexample` is one where the responder
  reads what the initiator never wrote.
* C89 - `Props/Separate.lean`. `C89_across` by `key_binds` of C88: label, network and public keys can be read off from the
  messages hashed for a key (`Spec.keyMessages`). `C89_within`: the five labels differ. The terminators are halves of a
  hash, of which a collision of SHA-256 says nothing; keys after re-keying are made by ChaCha20, see C74.
* C90 - `Props/Oracle.lean`. `C90_sync`, `C90_async` from `lengthBytes_xor`: the key stream is added to the little-endian
  length, so that the change of bits passes through; `C90_async` by the verdicts of C62. `C90_handshake` in the same way. `C90_learns` reads the length off
  from the byte at which the reader gives up.
* C91 - `Props/Mismatch.lean`. `C91_keys` by `key_binds` (C88): equal keys have equal labels, magics and public keys in
  equal order. `C91_one_side` by `C62_library`, with the flight of the peer as the stream and its length from
  `flight_length`; the key for which the flight was made is arbitrary, so that replays are a case of it, and
  `C91_reflected` is the case in which the party is its own peer. `C91_both` joins two of them, each reading what the other
  sends. `C91_chance` counts the windows. A case with two initiators meets the hypotheses.
* C92 - `Props/Same.lean`. Both handshakes follow the same verdict of C62, which is unique, and a cipher state is
  determined by keys and number (`At.unique`); for the reads, `C62_session_sync`, `C62_session_async` and
  `C62_session_agree`. The count of packets stays within the counters by `judge_rest`: each packet has 20 bytes or more.
  `C92_writes` by `Writer.write_eq`. A stream cut in two ways meets the hypotheses.
* C93 - `Props/Resume.lean`. `Spec.ReadOn` says what each call returns, with the packet number that is due as its only
  state; `C93_frames` proves the reads equal to it by induction on the bodies, with the two ciphers at different numbers
  (`decryptPacketLen_alone`), and `readOn_unique` makes it exact. `C93_damaged` and `C93_pushed` are instances;
  `C93_async` by `C62_session_async`. A pushed stream and a stream with one flipped bit are evaluated.
* C94 - `Props/Deny.lean`. `Spec.madeUp` writes the peer's bytes with the receiving keys of the one who makes them up.
  `C94_made_up` quantifies over all senders of C59 (`all_senders`) and uses that both sides derive the same keys
  (`dirs_peer`), `C94_real` is its instance with the real cryptography; `C94_accepted` by the completeness of the
  handshake (C47) and `C93_frames`, `C94_accepted_async` by `C62_session_async`.
* C95 - `Props/Cut.lean`. `Spec.whole` counts the packets that are complete in so many bytes. `C95_session` is the
  blocking reader alone: `stream_cut` splits the bytes into whole packets and less than one, the whole ones are read by
  `C93_frames`. `C95_handshake` is the cut in the handshake (by C33), `C95_connection` and `C95_connection_async` are end
  to end over all senders of C59; the asynchronous reader by `C62_session_async` with `judge_cut`. `C95_real` is the
  instance with the real cryptography. The `example` cuts a conversation at thirteen places.
* C96 - `Props/Known.lean`. `Spec.looksLikeKey` is the test, for any encoder of a coordinate and a sign, on the decoder of
  the concrete curve. `C96_recognised` quantifies over all senders of C59 and uses that valid secrets are those whose
  encoding decodes to the public key (C53). `C96_rare`: an array that passes is determined by its decoded coordinate, of
  which there are fewer than 2^256, and a bit. The `example` has another encoding of a key, which fails the test.
* C97 - `Model/QuickStart.lean`, `Props/Quick.lean`. `quickStart` is the program, `quickStartAsync` the asynchronous one.
  `C97_prints` and `C97_prints_async` quantify over all senders of C59; the blocking read is C94, the asynchronous one
  `await_quiet` of C81, the writing `sent_stream`. `C97_padded` puts `C58_pair_partial` (the decoy goes first) into
  `C97_prints`. `C97_real`, `C97_real_async`: the real cryptography. The `example` runs both programs against a peer without
  and with padding.
* C98 - `Props/Determined.lean`. The bytes are `Spec.madeUp` of C94; `packetStream_prefix` goes through the packets (the
  length bytes determine the length, the sealed part header and contents), `garbage_determined` finds the end of the
  garbage, `handshake_prefix` the version packet. Two nested `AllSenders`, for the two conversations. `C98_real` is the
  instance with the real cryptography; the `example` has one party with garbage and decoys and one without.
* C99 - `Props/Long.lean`. `C99_read` and `C99_polls` hold of all states of a reader without overflow checks (a poll keeps
  `AsyncReader.Fits`); `C99_any_length` joins `writeMany_release` with C59, which has no bound on the number of messages;
  `C99_write_panics`, `C99_read_panics` and `C99_poll_panics` are about the ciphers after 2^32 - 1 packets, and
  `C99_checked_bound` carries this to connections from the handshake on. The `example`s: five thousand million messages
  with the real cryptography, and 2^32 messages in a checked build.
* C100 - `Model/ShapedStart.lean` is the program with its schedule (the steps of the decoy thread before `write`, of both
  threads during it and of the decoy thread up to `read`), `Props/ShapedStart.lean` the proof: the bytes of the peer by
  C94, our writes by `threads_senders` of C59 at the step in which `write` returns, where the lock is free (`step_grows`);
  only `read` touches the reader. `C100_returns` takes a schedule from `C51_no_deadlock`. `C100_padded` is the case of a
  peer with padding. The `example`s run it with the toy ciphers in three schedules.
  `Props/ShapedStartAsync.lean` is the same for the asynchronous example (`C100_prints_async`, `C100_real_async`): the
  moves leave the reader alone (`asyncShaped_run_reader`), the writes are those of `task_senders`, and `read` is awaited.
  `C100_returns_async` takes its schedule from `C52_answered`; `C100_padded_async` is as `C100_padded`.
* C101 - `Props/Silence.lean`, over the transports of `Model/AnyTransport.lean` and the constructors of
  `Model/Halves.lean`. `Conn.Stalls` says that the peer sends at most `left` bytes more; `readExactN_stalls` that
  `read_exact` then returns at most that many. `unservedDuplex` is the connection of the example. The `example`s show
  that 64 and 20 are exact.

## 3. Trusted base

* The Lean 4.33.0 kernel. No `sorry`, `native_decide`, `bv_decide` or own axiom. Mathlib provides finite fields, Lucas
  primality and affine elliptic curves for C53 (and with it C59, C61, C62, C88, C89, C91), polynomials and counting for
  C67, C83, C86, C87 and C91, and ordered fields for C60 (and with it C80). It is imported, through modules shared with these, by the files
  of C63, C66, C68 to C70, C73, C76, C81, C82, C84, C85 and C90 as well. Its theorems are checked by the same kernel.
* `Spec/Reference.lean` was written from knowledge of the text of BIP-324; the text is not in /repo.
* The conversion of `u64` to `f64` and the division of `f64` are those of IEEE 754 (C60).
* Axioms: each theorem depends on at most `propext`, `Classical.choice` and `Quot.sound`. The exact set
  of every theorem in `MANIFEST.json` is in `AXIOMS.md` (generated by `tools/axioms.py`).
* The reading of the Rust source. Every model definition cites the file and lines it stands for. The
  model was written by hand; the test vectors 1 to 5 of the repository are run on it with the concrete
  functions (`Verif/Concrete/Vectors.lean`). These runs use `#guard`, that is the Lean evaluator: they
  are tests of the model, and no theorem depends on them. Vectors 6 and 7 (4 MB and 16 MB) are not run.
* The laws `Lawful P` of the dependencies, a hypothesis of the theorems and not an axiom. For the functions
  of RFC 8439 and RFC 5869 the laws are proved (`rfc_lawful`), and for secp256k1 with ElligatorSwift too
  (C53, `C53_real_lawful`), for any choice of encodings, on the secrets for which that choice decodes to the
  public key. What stays assumed is that the crates compute these functions, and that the library always
  finds an encoding (it searches in a pseudo-random order; that one exists for every key is not proved).
* `open_iff` says that decryption accepts exactly what encryption with that key produces. It is a fact
  about the functions. Against an attacker without the key, C67 bounds the one-time keys for which a forgery is accepted;
  that the one-time keys look random is the computational assumption on ChaCha20, which is not stated anywhere.

### Simplifications

* A transport is a finite script of answers. Any finite execution is covered (proved: C66, C69); an infinite sequence of
  `Interrupted` is not, so termination claims hold for transports that eventually answer.
* `read_exact` and `write_all` are the default methods of `std`; a transport overriding `read_exact` with other behaviour is excluded.
* The state of a cipher after an overflow panic inside it is given as the state before the call.
* In C44 a read that has to wait is represented by `WouldBlock`.
* Cancelling an async call means that its future is not polled again and runs no further code.
* Relaxed atomics are sequentially consistent except in C80; `thread::spawn` succeeds; the tokio runtime is not shut
  down; panics unwind; time is abstracted (an interval may tick whenever the task waits) except in C79.

## 4. What the proofs found in the code

Each item is a theorem about the model, in the place named.

1. The `u32` chunk counter of the length cipher overflows at 2^32 packets: panic with overflow checks,
   departure from BIP-324 without (C10, C99).
2. Contents of 2^24 bytes or more are accepted by `encrypt` with a truncated length (C12).
3. `PacketType::from_byte` compares with 128 instead of testing the top bit, so a decoy with a reserved
   bit set is reported as genuine (C13).
4. `decrypt_to_vec` on fewer than 16 bytes underflows: panic, or `PacketTooBig` in release builds (C14, C43).
5. `write` accepts payloads which the peer's synchronous `read` refuses, from 4000014 bytes on; the
   asynchronous `read` has no such limit, and handshake decoys are limited to 3999997 bytes (C27, C29).
6. The synchronous `read` loses bytes when a read fails in the middle of a packet; in the garbage phase
   of the handshake `Interrupted` is not retried (C32).
7. After an authentication failure the asynchronous reader stays at that packet for ever (C31); the
   synchronous one goes on with the next bytes.
8. A close first seen by a write is `BrokenPipe` and gives the suggestion Abort, not RetryV1 (C33).
9. After a failed or ignored write, later writes that return `Ok` cannot be read by the peer (C35).
10. The ratio of the statistics becomes `None` again when the read total is a multiple of 2^64 (C39).
11. The asynchronous decoy task never ends, because the `else` branch of its `select!` is unreachable;
    it keeps sending decoys after the shaped protocol was dropped (C40).
12. An error from `flush` is returned although the whole packet was taken (C45).
13. A plain asynchronous write whose future is dropped inside `write_all`, even before the first byte is taken,
    has used its packet number: the peer cannot read anything that is written later (C50).
14. Re-keying seals with the AAD of the message at hand. This is harmless, as only the content part is used (C09).
15. V1 peers are recognised by four bytes instead of sixteen, after the own key and garbage were sent, in both roles;
    an honest key that begins with the network magic is refused, and nothing avoids making such a key (C54).
16. The statistics count failed writes, do not count headers, keys and tags, and count what is sent but not what is
    received in the handshake, so the ratio of written to read bytes is biased (C55).
17. Each side writes its whole flight before it reads. If neither direction of the transport holds key and garbage, or
    neither holds all but the key of what its sender sends including decoys, two honest peers wait for each other
    forever (C56). A shaped peer sends up to 7327 bytes; decoys given by the application have no limit.
18. A padding decoy precedes the genuine packet instead of following it, and is written and flushed on its own: without
    cover traffic the lengths of all payloads can be read off the moments at which the wire grows (C58).
19. The statistics are consistent per counter only. The ratio divides totals of different moments, so that it can be 10
    although never more was written than read, and the last activity can go back (C60).
20. The loop that the documentation of `receive_version` shows slices the received bytes without asking whether the
    packet is complete: unless the packets up to the version packet arrive together with the end of the garbage
    terminator, an application that follows it panics although the peer is honest (C63). The loop shown for
    `receive_garbage` moves `handshake` in each round and compiles only because `todo!()` precedes it.
21. `into_inner` of the asynchronous reader drops the part of a packet already taken from the transport without telling;
    neither the documentation nor the return type says so (C64).
22. The fuzz target for `receive_garbage` appends the terminator to every input, so that it never reaches
    `NeedMoreData`; neither target reaches `receive_version` or a cipher (C65).
23. The comments of both `handshake` functions list I/O errors only, and they report six internal ones; `from_ecdh` and
    `receive_key` list `SecretGeneration` and `send_version` lists `Decryption`, which they never report; the text of
    `PacketTooBig` says 4MiB, and the limit is 4,000,014 bytes. The asynchronous `read` has no limit and never reports it (C70).
24. The decoy thread writes with the lock held. When the peer does not read, decoys fill the channel, whatever its capacity; the
    thread then blocks, and with it every `write` and the drop of the writer. Two shaped parties that write before they read can
    block each other for ever, whatever they write; two plain parties cannot if the channels are large enough (C71, C72).
25. `regtest_handshake` reads the node's garbage, terminator and packets with one `read` into 4096 bytes. It fails when the
    network cuts them, when they arrive with the next packet, and always when the node sends more than 4060 bytes of garbage
    (35 of the 4096 lengths that BIP-324 allows). It does not look at the type of the answer, so a decoy fails it too (C73).
26. The asynchronous writer queues commands without bound. A `write` whose future is dropped (a timeout) leaves its payload in the
    queue; with a peer that does not read, and decoys that have filled the channel, every further call adds to it
    (`C75_blocked`, `C75_queue`). Nothing tells the application that the payload may still be sent.
27. Three tests check less than their names say. `regtest_handshake_v1_only` (round_trips.rs:601-625, `#[should_panic]`) never
    calls `receive_key`; it passes against any peer that hangs up before 64 bytes and would fail against a V1 peer that answers
    64 bytes (`C76_v1_only`). `test_protocol_drop` (traffic/io.rs:242-250) drops an error: with an empty reader the handshake
    always fails and no thread is started (`C76_protocol_drop`). `test_additional_authenticated_data` (lib.rs:1049-1094) passes
    the same AAD on both sides and would pass as well if the AAD were ignored (`C76_aad`: it never tries another one).
28. `OutboundCipher`, `InboundCipher` and `CipherSession` derive `Clone`, and `into_split` hands the ciphers out. A clone
    that is used beside its original repeats keys and nonces (`C77_reuse_counterexample`, `C77_copies_leak`,
    `C77_known_plaintext`); a cloned inbound cipher accepts replays (`C77_replay`). Nothing in the library needs the
    derive; without it the types would rule this out.
29. The limit of 4,000,014 bytes protects the handshake only. In a session both readers allocate what three bytes
    announce, up to 16,777,232 bytes, before anything has been authenticated (`C78_read_chosen`); the synchronous one
    applies the limit after the whole packet has arrived (`C78_too_big_late`), the asynchronous one never, and it
    allocates the plaintext besides (`C78_poll_attained`). An attacker who flips bits of a length causes this without
    keys. A comparison right after `decrypt_packet_len`, as in the handshake, would stop it.
30. `receive_garbage` searches from the start of the buffer each time, so a peer that sends byte by byte turns a search of
    4111 bytes into 8,390,656 comparisons (`C78_searches_attained`); resuming 15 bytes before the old end would need 4096.
    The handshake has no limit on the number of decoys either (`C78_decoys_unlimited`): a peer keeps it in the version
    loop as long as it likes.
31. The background senders act on a grid of exactly 100 ms from the start of the connection (`C79_grid`, `C79_task_grid`):
    an observer who has found the phase knows of every packet off the grid that it is the application's, so cover decoys
    do not cover those. A random sleep would.
32. The asynchronous task makes up for ticks it missed (`C79_burst`, tokio's default `MissedTickBehavior::Burst`): after a
    transport that was not ready for a second, ten decoys go out at once. `MissedTickBehavior::Delay` would keep them
    apart as the thread does (`C79_spacing`).
33. The shutdown flag and the statistics are `Relaxed`. For the flag that costs only time (`C80_delayed`), but no bound on
    it (`C80_drop_counterexample`). For the ratio it means that `write_read_ratio` can report bytes read without the bytes
    written before them (`C80_ratio_counterexample`); the bounds of C60 need one order of the operations.
34. The tests look at the first packet whatever its type, where BIP-324 says that a decoy is to be ignored: a peer that
    sends one decoy whose contents are not the message waited for makes the ping-pong, regtest and integration tests fail
    (`C81_tests`: the verdict is over the contents of all packets). The integration tests do not compare the nonces of
    pings and pongs, so any three pongs pass (`C81_integration`); `test_async_protocol_drop` asserts nothing after the
    drop and would do with 64 of its 400,000 bytes (`C81_async_drop`).
35. The documentation of the crate recommends a BufReader, and the example measures it for three scenarios. For messages
    above the buffer it saves one call in six: the length of a packet is then read by filling the buffer, and the rest
    past it (`C82_large`: 5,000 calls instead of 6,000).
36. An honest connection is refused as V1 once in 2^32 keys on each side, since four bytes are compared instead of the 16
    of BIP-324 (exact counts in `C83_v1`, `C83_v1_standard`); the garbage terminator adds less than 2^-115
    (`C83_negligible`).
37. A `BufWriter` around the writer repairs the desynchronisation of C35 as long as the packets since the last successful
    flush fit into its buffer (`C84_transient_sync`, `C84_transient_async`); beyond that it comes back
    (`C84_counterexample`).
38. `ProtocolWriter::write` of the futures API is not cancellation safe (`C50`), but over a `tokio::io::BufWriter` with
    room for the packets since the last successful flush it is (`C85_history`, `C85_delivered`); the documentation
    mentions neither.
39. The I/O modules drop the session id (io.rs:406, futures.rs:240 `into_split`): an application that uses `Protocol`
    cannot compare ids with its peer, the only means BIP-324 offers against an attacker who replaces the keys (C88).
40. Nothing authenticates a length before the whole packet is there, so that an attacker who changes the length bytes and
    counts the bytes until the connection fails learns the length of the sender's packet (`C90_learns`). BIP-324 accepts
    this: lengths are encrypted, not authenticated by themselves.
41. Two parties in the same role or on different networks do not find out: both wait for a terminator until the transport
    ends, as there is no time-out and 4111 bytes seldom come. When one of them closes, the other is told to retry with V1
    (`C91_both`), although the peer does speak V2.
42. A refused packet does not end a blocking session: an application that calls `read` again after `Decryption` can be
    given the honest messages later, behind any number of forged ones, by an attacker who moves the bodies some places
    back (C93). The documentation of `read` does not say that the connection is to be closed, as BIP-324 demands.
43. An established V2 session that is closed or cut ends with an error that suggests RetryV1 (C95): `From<std::io::Error>`
    (io.rs:185-203) does not know whether the handshake is over, and `read` uses it too. An application that follows the
    suggestion is moved to V1 by anybody who cuts the connection at any moment, although the peer has shown that it speaks
    V2. And an orderly close between two packets gives the same result as a truncation inside a packet (in BIP-324 there
    is no end marker either).
44. `Handshake::new_with_rng` has an rng at hand but encodes the public key with `ElligatorSwift::from_pubkey(pk)`
    (handshake.rs:133), which takes no randomness. If the encoding is a function of the public key, an observer recognises
    every key of the library by decoding and encoding it again (C96), which is what ElligatorSwift is meant to prevent.
    `ElligatorSwift::from_seckey` with random bytes would do.
45. The examples of the documentation (protocol lib.rs:16-83, io.rs:15-45, futures.rs:15-50, traffic lib.rs:11-79) take
    the first packet for the response without looking at its type. Against a peer that uses the traffic crate with random
    padding the first of them always prints the length of a decoy (C97), since the padding goes before the genuine packet
    (18), and that of the traffic crate prints zero bytes (C100). `read` could skip decoys, or the examples could call
    `packet_type`.
46. Nothing limits how long `new` waits. A peer that accepts the connection and sends fewer than 64 bytes keeps it waiting
    for ever, and the caller is not told to use V1 (C101). The application has to set a time limit; the documentation
    does not say so.

## 5. Mutation tests

`seeded/LOG.jsonl` has one line per seeded bug: the definition edited, the edit, the claim it breaks,
the theorems that failed and the theorems tightened because of it.
