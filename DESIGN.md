# Formal model of rsomeip — design

The subject is the Rust workspace in `/repo` (crates `rsomeip-bytes`, `rsomeip-proto`,
`rsomeip`). The model is written in Lean 4 under `/verif/lean/Verif`. Nothing in `/repo`
is compiled or run: the model is a hand transcription, function by function, and every
definition cites the file and lines it transcribes.

## Trusted base

1. Lean 4.33.0's kernel, and the axioms `propext`, `Classical.choice`, `Quot.sound`
   (no others; no `sorry`, no `native_decide`, no `bv_decide`).
2. The transcription of the Rust code into Lean definitions (checked by reading, and by
   the seeded mutations in `seeded/LOG.jsonl` as far as the theorems' sensitivity goes).
3. Library behaviour used by the code and modelled from its documentation, not from source:
   - `bytes`: `Buf`/`BufMut` as byte sequences; `get_*`/`put_*` are big-endian, panic when
     out of data / out of room; `Buf::take(n)` limits what the inner reader sees and advances
     the underlying buffer by what was read. C122 and C123 take only the contract of the traits (what
     `remaining`, `chunk`, `advance` and their writing counterparts promise), the loops of
     `copy_to_slice` and `put_slice`, and the code of `Take`.
   - `std`: integer conversions, `str::as_bytes`, `String::from_utf8`, `str::encode_utf16`,
     `String::from_utf16`, `HashMap`, `Option::unwrap_or_default`, `array::from_fn` order.
   - `tokio`: `mpsc` (bounded FIFO, fails when the receiver is gone, weak senders do not keep
     the channel open), `broadcast` (bounded ring, lag reported, closed when all senders are
     gone), `oneshot`; `scc::HashMap` as a map with a lock per
     bucket, the assignment of keys to buckets being arbitrary and changing; UDP/TCP sockets as arbitrary
     environments.
4. `usize` is 64 bit and buffer sizes are mathematical naturals: sums of sizes do not
   overflow and memory allocation does not fail.

## Conventions

- A reader is a function from the remaining bytes to an outcome and the remaining bytes
  (`ok`, `err`, `panic`, `diverge`); the remaining bytes are tracked on errors as well,
  since array decoding continues after an element's error.
- A writer is a function from a buffer (contents and free room) to an outcome and a buffer,
  so partial writes on failure are visible.
- A trait implementation is a dictionary value (`Ser α`, `Dec α`); generic impls are
  functions on dictionaries. The closed family of types is a universe `Ty`.
- Panics, infinite loops and lost data are explicit outcomes, never defaults.
- Where the code does not satisfy the property a user would expect, the negation is proved
  with a witness (`..._fails`/`not_...`), a theorem with suffix `_partial` states what does hold, and
  the disagreement is listed below.

## What is modelled, and where

| Code in `/repo` | Model |
|---|---|
| `rsomeip-bytes/src/{ser,de,macros,lib}.rs`: all `Serialize`/`Deserialize` impls (numbers, bool, strings, arrays, tuples, `Vec`, references, `Bytes`), length-delimited forms, derive-like macros | `Bytes/{Buf,Codec,Str,Utf,Universe}` |
| the same functions, and those of the messages and of `rsomeip-proto`'s endpoint, over any implementation of `Buf` and `BufMut` | `Bytes/{AnyBuf,AnyMut}` (C122, C123: they do what those on byte sequences do) |
| `rsomeip-proto/src/primitives.rs`: identifiers, versions, message types, return codes, conversions | `Proto/Primitives` |
| `rsomeip-proto/src/message.rs`: header, message, builders, (de)serialization | `Proto/Message` |
| `rsomeip-proto/src/interface.rs`: interface, method/event tables, the checks | `Proto/Interface` |
| `rsomeip-proto/src/endpoint.rs`: registry, `poll`, `process` | `Proto/Endpoint` |
| `rsomeip-proto/examples/{request-sample,response-sample}.rs`: both loops, with a network between them | `Proto/Sample` |
| `rsomeip-proto/src/tp.rs`: segment headers, segmenting, reassembly | `Proto/Tp` |
| `Display` impls of the three crates | `Proto/Display` |
| `rsomeip/src/someip.rs`, `rsomeip/src/endpoint.rs` (data types) | `Someip/{Message,Interface}` |
| `rsomeip/src/endpoint/v1.rs` and `v1/{connection,interface,listener}.rs`: endpoint, listener and connection tasks, `Stub`, `Proxy`, shared tables, weak and strong handles, every `await` point that can be interrupted | `Rt/Endpoint` (one transition system for one endpoint; the socket is its environment), `Rt/Tasks` (send and receive loop on their own) |
| `rsomeip/src/socket/udp.rs`: receiving task, connect, listen, accept, recv, send, drop | `Rt/Udp` (the operating system is the environment) |
| the two put together: `Endpoint::spawn(UdpSocket)` | `Rt/Node` |
| several of these on a network that loses, repeats and reorders datagrams | `Rt/Net` |
| programs on such a network that are killed at any point and started again | `Rt/Crash` |
| programs connected by TCP that are killed at any point and started again | `Rt/TcpCrash` |
| `rsomeip/src/socket/tcp.rs`: `send`, `recv` and their retry loops | `Rt/Tcp` (over the answers of the operating system) |
| an endpoint on a TCP socket: `Endpoint::spawn(TcpSocket)`, connections as pairs of byte streams | `Rt/TcpNode` (which of the calls that set up a connection succeed is up to the operating system) |
| the calls by which `TcpSocket` sets up listeners and connections (socket, bind, listen, connect), on the sockets of one Linux system, below an endpoint | `Rt/TcpOs` (rules from the Linux manual; port 0 and other programs at the same address are left out) |
| several of these connected by TCP, and strangers: who is connected to whom, bytes under way | `Rt/TcpNet` |
| `rsomeip/src/support/collections.rs` (shared map), `support/sync.rs` (response channel) | `Rt/{SharedMap,Response}`, `Support/Map` |
| the queue of a connection with the line of calls that wait for room (`connection.rs`: `Connection::send`, `SenderTask::commands`) | `Rt/Chan` |

Not modelled: logging (`tracing`), `Debug` output, error texts (errors are told apart only where
callers can tell them apart), `Default` impls that only repeat field defaults, time that
passes between the calls of the operating system by which `TcpSocket` sets up a connection (`connect`,
`listen`, `accept` are one step each), address families, test helpers (`testing.rs`). Time and memory
limits are not modelled. Theorems about progress say that a step is possible, that only finitely many
steps can be taken, or (C104, C126 to C139, C141, C142, C146 to C149) what happens in every infinite run that is fair to each task and call, and to
what sockets and streams carry (`Spec/Fair`, `Spec/Endless`, `Spec/FairNode`, `Spec/FairTcp`,
`Spec/FairTcpNet`, `Spec/FairTcpCrash`); that tokio is fair in this sense, and that the waiters of a lock or channel are, is an
assumption of those theorems. The models of endpoints and sockets let a call that waits for room in a
queue go on whenever there is room, in any order; tokio gives free room to the call that has waited
longest, polled or not. So every history of the code is one of the model and what is proved of all
histories holds; progress theorems speak of schedules in which a waiting call that could go on is
polled. What the order of waiting calls does is modelled on its own in `Rt/Chan` (C105). Hardware memory ordering is not modelled; tasks of an endpoint run
in one `LocalSet`, and steps interleave at `await` points.

Fidelity: the project's own unit tests are run on the model in `Verif/Conform/{Bytes,Proto,Someip,Rt}.lean`,
the examples of its documentation in `Verif/Conform/Docs.lean`,
one `example` for each test (those that only concern the operating system are left out). The code and
the model so agree on everything the project tests. These examples are tests of the model, not proofs
of properties; no claim rests on them.

The axioms each property theorem depends on are listed in `AXIOMS.md` (generated with
`Lean.collectAxioms`).

## Plan per property

- **C01 Fixed-width numbers are big-endian and round-trip** — `prim` codec over width k; value-independent big-endian lemma `beToNat (natToBE k n) = n % 256^k`, proved by induction on k; one theorem per Rust type against an explicit byte formula.
- **C02 Short reads of numbers are reported exactly and consume nothing** — case split of the primitive decoder on the buffer length.
- **C03 Booleans** — `decide` over all 256 bytes for the bit, plus the generic suffix argument.
- **C04 size_hint, returned size and bytes written always agree** — dictionary law `Ser.Lawful` closed under every combinator; induction over the type universe `Ty`.
- **C05 Serialization only appends** — same law (`bytes appended = d ++ written v`, on every outcome).
- **C06 Length-prefixed serialization: exact length, exact limit, no write on overflow** — unfold serialize_len; independent spec `be width len ++ payload`.
- **C07 Round trip for every well-formed type** — induction over `Ty` with predicates delimited/well-formed.
- **C08 Encodings are prefix-free and injective** — corollary of C07.
- **C09 Deserialization never panics** — decoder law `Dec.Safe` (never panics), induction over `Ty`.
- **C10 Deserialization consumes a prefix only** — decoder law `Dec.Suffix`, induction over `Ty`.
- **C11 A length field confines the inner deserializer** — run inner on `take n`; non-interference from the definition of Take plus suffix law.
- **C12 A length-prefixed region is consumed as a whole** — negation witness (u8 in a 2-byte region) + partial theorem for consuming types.
- **C13 A declared length longer than the input is rejected** — negation witness (Bytes) + partial theorem for fixed-width inner types.
- **C14 Vec deserialization terminates** — literal fuel-indexed loop; progress law by induction; divergence witness for every fuel.
- **C15 Vec of fixed-size elements: success iff the input is a whole number of elements** — induction on the buffer length.
- **C16 Array deserialization reports missing data** — negation witness + partial theorem (enough bytes) + exact default-filling behaviour.
- **C17 UTF-8 strings round-trip** — own UTF-8 codec, proved `decode b = some s <-> b = encode s`; encode proved equal to Lean core's `String.utf8EncodeChar`.
- **C18 UTF-16 strings round-trip** — own UTF-16 codec with `decode u = some s <-> u = encode s`; host byte order is a parameter; negation witness for big-endian hosts.
- **C19 String decoding is strict** — inversion of the decoder, using the two iff theorems above.
- **C20 Strings containing NUL survive** — negation: for every string with NUL the decode result is the part before the first NUL.
- **C21 Enough room means no panic; size_hint bytes are enough** — BufMut model with explicit remaining room and panic outcome; law closed under combinators.
- **C22 InsufficientData errors are truthful** — decoder law on errors, induction over `Ty`.
- **C23 Message and request ids are exact pairs of 16-bit halves** — arithmetic on Nat/BitVec.
- **C24 Ids order like their numbers** — arithmetic (lexicographic order vs a*2^16+b).
- **C25 ClientId prefix can be set** — negation witness + partial theorem.
- **C26 Session ids never become zero and cycle through all 65535 values** — closed form of n-fold increment by induction.
- **C27 Message type and return code bytes are preserved** — whole-table check over 256 bytes plus case analysis on the enums.
- **C28 Message type flags are independent of the type** — bitwise identities over all bytes.
- **C29 SOME/IP wire layout** — wire spec as an explicit list in `Spec`; unfold.
- **C30 Messages round-trip, alone and in streams** — combinator laws; induction on the list.
- **C31 Decoded messages re-encode to the same bytes** — inversion of the decoder.
- **C32 Undersized messages are rejected, truncated ones detected** — inversion; negation witness for truncation.
- **C33 Builders change only what they name** — field-update laws.
- **C34 Responses and errors keep the conversation identity** — unfold.
- **C35 Interface check accepts exactly the legal messages** — spec table independent of the code's nested match.
- **C36 Check failures are reported with the first applicable cause** — case analysis.
- **C37 Only requests are answered with errors** — negation witness + partial theorem.
- **C38 poll accepts exactly the messages it should and does not alter them** — iff characterisation.
- **C39 process writes all or nothing** — case analysis + C05; negation for the serialization failure.
- **C40 Proxy and stub views of an interface are dual** — corollary of C35.
- **C41 What one endpoint sends, the peer accepts unchanged** — C38+C39+C30.
- **C42 Endpoint and interface registries behave as maps** — fold over operation lists against an abstract map spec.
- **C43 TP segmentation partitions the body** — induction on the body length.
- **C44 TP reassembly inverts segmentation** — induction on the segment list.
- **C45 TP reassembly rejects lost, duplicated and reordered segments** — offset arithmetic.
- **C46 A completed reassembly contains exactly the original body** — invariant: accumulated body is a prefix made of the first k segments.
- **C47 TP header wire round trip** — arithmetic; negation witness.
- **C48 Splitting a non-final segment keeps it non-final** — negation witness + partial.
- **C49 join only accepts the continuation of the body** — negation witnesses + partial.
- **C50 Segmented messages travel end to end** — composition of C30, C43-C47.
- **C51 Both crates speak the same wire format** — equality of encoders, corollary decoders.
- **C52 A datagram is delivered completely or not at all** — inversion of the list decoder against an inductive description of packets.
- **C53 Messages are routed by service id and interface version only to the owner** — invariant over the runtime transition system.
- **C54 At most one live handle per interface** — invariant over the runtime transition system.
- **C55 A proxy hears only its remote** — induction on the queue.
- **C56 Per-connection order, no duplication, no invention** — ghost history invariant.
- **C57 UDP demultiplexing: packets go to their source's connection** — ghost history invariant over the UDP socket machine.
- **C58 UDP accept queue** — step analysis + invariant.
- **C59 UDP size limit** — unfold.
- **C60 Connecting again does not break an existing UDP connection** — negation by a concrete execution + partial.
- **C61 TCP send transmits exactly the buffer** — induction on OS results.
- **C62 TCP delivery is independent of segmentation** — negation witness + partial by induction on chunks.
- **C63 End of a TCP stream closes the connection** — coinductive-style: for every n the n-th read is an empty packet.
- **C64 Malformed outgoing messages are dropped** — negation witness (existence of a 2^32 byte payload, no computation).
- **C65 Shared maps are linearizable** — lock-step transition system (lock, look up, change, unlock, return); linearizability by an invariant carrying the order of changes.
- **C66 Responses are delivered at most once** — small protocol machine.
- **C67 Log formats identify messages** — hex rendering with an explicit left inverse.
- **C68 A stub reconnects exactly when needed** — registry machine.
- **C69 A dropped service can be offered again** — concrete execution in the runtime machine + partial.
- **C70 False alarms do not close a TCP connection** — negation + partial by induction on the answers.
- **C71 A message too large for a datagram only fails itself** — negation (every oversize message, every position) + partial by induction on the list of messages.
- **C72 Requests to an endpoint are answered in order, each once** — invariant `answered ++ current ++ queued = requests`; potential argument for the number of steps; case analysis of the task for what it can wait for.
- **C73 Messages are sent to the peer they are addressed to** — invariant over connections, stubs and proxies.
- **C74 Outgoing messages keep their order** — ghost history invariant `on the wire ++ to do = accepted`; induction on the queue for progress.
- **C75 A connection lasts as long as it is used** — step analysis with the ownership functions.
- **C76 A slow receiver does not block the endpoint** — negation: an invariant that is preserved by every continuation in which the receiver is neglected, and a reachable state that satisfies it; partial theorems for other interfaces.
- **C77 Dropping everything ends everything** — measure that every internal step decreases (no spinning), and case analysis of states without internal steps after everything was dropped.
- **C78 Messages for an open handle are not dropped** — invariant: the task that receives for an open handle has, or will have after its queued commands, a sender of the handle's channel; open channels are in the table.
- **C79 A packet whose processing has begun is processed completely** — negation: concrete history and no continuation settles the message; partial: equality of received and settled messages at every later packet or close.
- **C80 A failing UDP socket is reported to its connections** — negation: invariant (queue empty, sender kept in the table) preserved by every continuation; partial when the socket is dropped too.
- **C81 Dropping a UDP socket closes it** — negation: for every continuation without a failure the task can go on and the connection stays registered; partial for a later failure.
- **C82 On a UDP socket, messages come from datagrams of the reported sender, each at most once** — product of the two machines with calls synchronised; the endpoint and the socket part of every history are histories of the parts; invariant linking connections to channels; counting over channels and connections.
- **C83 What an endpoint returns, another endpoint sent** — product of any number of nodes with a set of datagrams sent so far; every node's part of a history is a history of that node; the frame of a message determines it.
- **C84 On a UDP socket, handles work until the socket is gone or their remote is connected to again** — invariants linking handles, listener and connection tasks to the socket's tables; a channel that is the only one for its address stays registered.
- **C85 Several proxies for the same remote work side by side** — negation by a concrete history; for every continuation: a channel without sender in table or task stays so; partial when there is only one connection to the remote.
- **C86 The end is final** — a channel that is empty and has no sender stays so under every step; ended connections stay ended.
- **C87 On a TCP socket, sending and receiving preserve the messages** — product of endpoint and byte streams; the endpoint part of every history is a history of the endpoint; invariant relating written bytes, the buffer being written and the queue; negation by a history in which a read ends inside a message; partial over whole-message reads, with the frames of the remote's messages.
- **C88 Without calls and without input an endpoint comes to rest** — UDP: a measure (work left in all tasks, channels and queues) that decreases with every step; TCP: negation by a cycle of two steps at any state with a closed remote; partial: no infinite silent run without such a close.
- **C89 Nothing is left undone** — the measure of C88 gives a state without steps; inversion of every step function at such a state; the equations of accepted/written and put/read packets (C57, C72) at empty queues.
- **C90 After the Endpoint is dropped and the socket has failed, everything ends** — a state without steps after the drop and the failure: task by task, no channel has a sender; then induction on the continuation.
- **C91 Datagrams are not given to connections that have ended** — invariants: channels not handed out are queued at a listener, channels handed out belong to a connection, listeners of the socket belong to listeners of the endpoint; with the correspondence of C82.
- **C92 On a TCP socket, handles work until their own connection or listener fails** — a node made of the endpoint and TCP streams; the endpoint's part ends a connection only at an error of the operating system; then C75 and C78.
- **C93 A server survives a failed accept** — negation for every continuation, from an invariant: the stub is open, its listener has ended, and its channel has no sender.
- **C94 What arrives is returned, once and in order** — composition of C89 (all datagrams of the connection are settled) with: a message for an open interface is never dropped (from the state in which it was made on), only this connection puts messages from `a` into its channel, and the channel is empty when recv waits.
- **C95 What one program sends the other returns, once and in order** — composition of C94 with: the datagrams to `b` are what the only connection to `b` sends (induction), all short enough while it runs, and C89/C74 for the sender; `contents (wireForm m) = [m]` from C06.
- **C96 What runs is bounded by what is used** — invariant: what holds a connection when the endpoint rests, and that no table of a listener or of a stub has two connections for one address; injection into (proxies) + (stub, remote) twice. Negation: induction over the number of remotes, each step a symbolic run of nine actions from any state of the family. On TCP the same, for what the endpoint holds does not depend on the socket; connections that the remote has closed are among them (`Props/Rt/CountTcp`).
- **C97 Weak handles give an endpoint as long as there is one, and do not keep it** — handles computed from the history; invariant that an endpoint without handles never gets one again (all moves); an ended endpoint has none.
- **C98 Nothing is left undone on TCP connections** — a state of endpoint and streams in which no step gets on is a quiet endpoint (the lemmas of C89) with all bytes read; the run to such a state by the measure of C88; written bytes by the invariant of C87, at the end of a connection by induction over the history.
- **C99 What one program sends over TCP the other returns, once and in order** — C98 for both sides, C87 for the bytes, then as C94: the messages of the reads are those the connection settled, those for an open interface were given to its queue, and the queue is empty. A concrete pair of histories with a read that ends inside a message is the negation.
- **C100 A call that is not polled stops nobody else** — negation as for C76: invariants kept by every continuation in which the call is left alone, with reachable states; partial theorem by case analysis.
- **C101 What has ended is forgotten** — negation: entries are kept by every continuation (invariants), and by induction on n a TCP server at rest with n entries of ended connections; partial: invariants that keys are distinct and were seen in the history.
- **C102 Nobody waits behind others for ever** — for each wait a measure that every step of the waiting task makes smaller and no other step makes larger, by induction on the continuation; queue lengths from C103.
- **C103 What waits is bounded** — invariant: no queue is longer than its channel; with the correspondence of what went in and what came out (C55, C69, C72).
- **C104 In the long run everything gets done** — runs are infinite sequences of steps; strong fairness for each task and call. No lock and no full queue lasts for ever (each holder is itself not stuck), so every task that has something to do makes steps again and again, and the bounds of C102 do the rest. The negation is a run that comes to rest in the deadlock, fair because no step of anybody is possible, and an invariant that the deadlock lasts in every continuation.
- **C105 Calls that wait for the same connection take turns** — a model of its own (`Rt/Chan`) of a bounded channel with the line of waiting callers; order by induction on histories; the stall as an invariant of every continuation; the partial theorem by induction on the place in the line, over infinite runs.
- **C106 What was decoded can be encoded again** — `Fits` of every value that was decoded, by induction on the type, for the shapes of `Spec/Resend`; then C07; the rest by witnesses.
- **C107 Truncated data is not taken for complete** — decoders without arrays, `Vec`s and byte strings are closed under appending to the input (`Dec.Ext`), by induction on the type; the rest by witnesses.
- **C108 A message sent once is returned once at most** — what arrives is a sub-multiset of what was sent (hypothesis), which is a sub-multiset of what was accepted for connections to the address (C74, induction on the history); contents of a datagram with one message are that message; C82 at the receiver.
- **C109 What a peer sends cannot blow up in memory** — `Spec/Memory`: bytes taken by a value, the part every value of the type takes, and the growth per byte of data, each by recursion on the type. Induction on the type: bytes taken plus growth times what is left is at most the fixed part plus growth times what was there; for Vecs each element consumes at least one byte (else the loop does not end), for arrays a missing element takes the fixed part.
- **C110 The sample programs hold their conversation** — `Proto/Sample`: the two loops and the datagrams under way as a transition system, with a network that may lose, repeat, reorder and bring in datagrams. Each turn on a datagram is characterized through C30, C38 and C39; induction on the history for what is under way and, over a faithful network, for the three phases of the conversation; witnesses for the rest.
- **C111 Segmented messages are not mixed up** — `Spec/TpMany`: the receiver with one open message for each identity, on packets. Each packet decodes to its segment (C50); the open message of an identity is what the first j segments of the message give (C45, C46); induction on the arrivals, with the arrivals of other identities leaving this alone. The mix-up is a theorem about all pairs of bodies.
- **C112 A datagram too long for the receiver is not taken for a shorter one** — cutting a sequence of frames at any byte gives frames, a shortened frame and nothing else, or less than a header (C52); the history by evaluation; C83's lemmas for what was sent.
- **C113 Segments can be told from whole messages** — setting the flag changes neither the type nor any field the checks look at (all 256 bytes); C50 for the bytes of a segment, C38 for what endpoints accept.
- **C114 One peer's traffic does not cost another's** — socket: invariant that a channel with missed packets is full, with C57 (everything put in is read, missed or queued) and the list of what became of each packet; endpoint: two concrete histories of the node model with the same program and the same datagrams of one remote.
- **C115 Answers go back over the connection on which the question came** — two invariants of the endpoint: before the connection is registered nobody is asking for one to this address; afterwards the handle in the shared map is the one that the listener (or the stub) owns, so it stays strong and every call finds it. Both are carried along histories. In the code nothing runs between accepting and registering unless the map entry is locked; the model allows other steps in between.
- **C116 An accepted UDP connection already has the datagram it was made by** — at the UDP socket model: channels made by datagrams have room for 32, a channel that missed packets is full, receivers handed out exist until dropped, and C57 accounts for every packet; the case in which recv waits is exactly one state of the receiving task. Negation by a concrete history.
- **C117 Calls are refused once the endpoint is gone, and for invalid messages** — at the endpoint model: once a weak handle cannot be upgraded no call is or comes to be connecting, and connections to an address have been shown as opened. Negation by concrete histories, for every message where the claim is about messages.
- **C118 UDP connections are accepted first come, first served** — Rt/Udp with Spec/UdpWords: `offered l`, `takenFrom l` and `pending l` are read off the history (which listener is the newest, which connections were admitted then, what accept returned). Invariant `Queues`: the queue of an open listener is `pending l`. Proved: accept returns a prefix of `offered l` (C118_order), each connection is made for the newest listener (C118_newest), and exactly when accept returns, waits or reports the end (C118_accept).
- **C119 What recv on a UDP connection answers** — unread packets are read off the history (those put into the connection minus those returned or reported); the channel of the model keeps exactly the last of them, by the accounting invariant of C57 and the fact that a channel that missed packets is full.
- **C120 serve and proxy fail only for a reason** — Props/Rt/Why: before a handle for an interface was handed out nobody owns a sender of a channel for it (invariant `Gone`), so the check finds nothing; a listener with a handle ends only if the connector says so; the connection that proxy finds was opened to that remote. C120_stuck: all open stubs share the listener in the endpoint's slot.
- **C121 Programs connected by TCP receive what the others have sent** — `Rt/TcpNet`: programs of `Rt/TcpNode` and the TCP between them: waiting connections, the other end of each, bytes under way. Invariant `Links` (ends are symmetric, what was written is what has arrived at the other end and what is under way), then C87 and C53 for each program. A history with two programs and a read that ends inside a message is the negation.
- **C122 Decoding depends on the bytes, not on how the buffer keeps them** — the decoders once more, for a type class of buffers (remaining, chunk, advance) and the loop of copy_to_slice; contract as a specification; simulation by the decoders on bytes, with a quantity that reading preserves to get through Take; induction over `Ty`.
- **C123 Encoding depends on the room, not on how the buffer keeps it** — the encoders once more, for a type class of writable buffers; simulation by the encoders on `BufMut`, induction over `Ty`; round trip from C07.
- **C124 A call of send_to that does not return Ok sends nothing** — endpoint model: cancelling a call is an action of the user, possible at every await. By the history: only a call in progress returns Ok (`inCall`, `lastCall`), and then it is over; induction over the history since the call. Locks: C100.
- **C125 An endpoint on a TCP socket can serve and connect** — the endpoint on a TCP socket, run on top of a table of the sockets that are bound to its address; socket, bind, listen and connect one by one, with the rules of the Linux manual. Invariant: the sockets are those of the running tasks, one listens at most, no two connections have the same remote.
- **C126 On a UDP socket everything gets done in the long run** — infinite runs of the endpoint joined to the socket; strong fairness for each task and call of both. The endpoint's part of a fair run is a fair run of the endpoint model (each wait at the border of the two lasts only as long as the other side makes no step), so C104 applies; the rest by measures (commands left in a step of the socket task, packets in a channel, connections in the backlog).
- **C127 On a TCP socket everything gets done in the long run** — infinite runs of the endpoint on a TCP socket; the endpoint's part of a fair run is a fair run of the endpoint model, because every write that takes something makes what is left shorter, so C104 applies; bytes read grow as long as something has arrived that was not read. What was written of a connection that has ended: C98.
- **C128 Programs connected by TCP receive everything in the long run** — infinite runs of several programs connected by TCP; the part of a fair run that one program sees is a fair run of C127; what TCP has still to carry gets shorter with every arrival, so C127_sent at one end and C127_received at the other meet. Connections come in pairs of ends, every accepted one has its other end. False for messages that are read in two pieces: a run that comes to rest without the message.
- **C129 Everything can get done as long as no call of send_to is in progress** — for any transition system a scheduler that always serves the one not served for the longest time gives a fair run from every reachable state; readers that empty their queues can always be added while no call of send_to is in progress, and that stays so, because nobody calls. C126, C127 and C128 for that run, cut off when everything is done. With a call of send_to in progress: the deadlock of C126 can do nothing at all.
- **C130 A remote that has closed its TCP connection costs nothing** — an invariant: the listener owns the connection it accepted last from an address, so the connection is held and lasts (C75). After the end of the stream nothing arrives, so only finitely many reads return something, but reading is possible again and again and a fair run does it; with C129 there is such a run. Histories with any number of clients by induction. The positive part: an error on a connection ends it.
- **C131 In the long run, dropping everything ends everything, whatever still arrives** — C77 with fairness: dropped handles stay dropped, a measure for each task (what is waiting for it) does not grow any more and gets smaller with each of its steps, and each task can go on until it ends: first the task of the endpoint, then the listeners, then the connections. The same for endpoints on UDP and TCP sockets, whose runs are runs of the endpoint.
- **C132 On a UDP network that loses nothing, every message gets there in the long run** — Runs of the programs are runs of the network seen at one address (Lemmas/NetRun). C126 says that the message is sent; the assumption about the network that the datagram arrives; C126 that the socket deals with it, that the connection it is put into is accepted, and that its packets are read and handed out. What came before is told apart from what comes after by counting the packets of the connection.
- **C133 In the long run a handle returns what is sent to it** — At the endpoint: the channel of a handle holds what was put into it and not yet returned (the pipe invariants of C84); each call of recv makes the number of returned messages grow while something is left, so it passes every bound. For messages between programs: C132 says that the message is handed to the handles of its interface after it was sent; the invariants of C80 to C84 that it is then put into the channel of the open stub or proxy; and the first part that it is returned.
- **C134 On whatever socket, and over TCP, in the long run a handle returns what is sent to it** — C104 says that the messages of a packet are dealt with after it was read; which is told apart from what was dealt with before by counting. The invariants behind C92 say that a message that is dealt with is put into the channel of the open handle for its interface, and C133 that it is returned from there. Over TCP: C128 says that what was accepted at one end is dealt with at the other, and C121 that what was dealt with before was accepted before, also if the two ends did not yet belong together. The negations are those of C104, C127 and C128.
- **C135 The only thing that can get stuck is a call of send_to that has to wait for a connection** — A queue that is full for ever is that of a handle whose user could read again and again but does not, or that of a stub inside a call for ever; a queue holds at most 16 messages, so that one read makes room. The proof of C104 for calls is repeated without the assumption on queues: it is needed only in the two states in which a call waits for the endpoint, and a call gets there only if no connection to its destination is registered. Then C104, C128 and C133 apply.
- **C136 In the long run a server's answers get to its clients** — C115 keeps, for all histories, that the connection is registered for the address and no call for it waits for the endpoint; so C135 says that the call ends, and a call that is neither given up nor fails ends with the message in the queue of this connection. From there on C135 (UDP) and C134 (TCP) take the message to the proxy; the steps of an endpoint are found again among those of the network.
- **C137 In the long run a question is answered** — C135 takes the request to the stub; it is returned at a point of time, after which the user calls `send_to`. A call that comes to an end puts the message into the queue of a connection to its destination (C73), fails or is given up. From there C135 (UDP) or C136 (TCP) takes the answer to the proxy. A proxy is cut off only if its own connection has ended, and a proxy sends on no other: so if the question was asked with the proxy itself (`C137_ask`, `C137_tcp_ask_partial`), that exception is one about the connection of the question.
- **C138 A remote that leaves a connection attempt unanswered holds up nobody else** — Fairness is weakened: the endpoint task may stop for ever where its next step depends on the answer of the socket. The lemmas behind C104 and C135 are proved from this weaker assumption: the endpoint task holds no lock while it waits for the socket. That it does hold up requests is shown by a run and by an invariant of all executions without an answer.
- **C139 A program that crashes and is started again fits in** — `Rt/Crash` adds to `Rt/Net` a step in which a program is replaced by a new one at any point; the network keeps what was sent. Each life of a program is an execution of a program on its own, so that C53, C73, C82 apply to each life, and a datagram that arrives was sent in one of the lives. For the long run: the last life of a program is a run of a program on its own that begins late; C132 and C133 are proved for pairs of such runs.
- **C140 A program that was started again does not get what was meant for the one before it** — A history with a crash in which the old answer is returned is run. For the partial theorem the datagram behind a returned message (C53 and the socket's part) is found among the steps since the program was started.
- **C141 Nobody waits for ever for what cannot come** — Invariant: a channel whose source has ended gets no new owner. Measure: the connections that still hold it and the messages in them; each fair step of a holding connection or of the reader lowers it. A fair run of this kind is built.
- **C142 When a UDP socket is gone, everybody is told** — Invariant: once the socket's task has stopped and the socket was dropped, nothing is put into any channel or backlog. So each is emptied by fair tasks, then the end is reported, and C141 does the rest. A fair run of this kind is built.
- **C143 Over TCP a program that was started again reads nothing that was meant for the one before it** — Model of TCP programs that crash (`Rt/TcpCrash`): connections numbered through all lives. Invariant by induction over the history: the abstract pairing of ends of C121 for all lives, what was written and has arrived on each connection, in which life it was made; those with numbers from the count at the crash on were made later; the new program is connected to such ones only.
- **C144 Over TCP what a program returns was sent to it, also if programs crash** — C143 with C87: in whole reads the messages are those that were accepted. Witness for the failure: the history of C121_false after a crash.
- **C145 Over TCP a message sent once is returned once at most, also if programs crash** — The invariant of C143 also keeps a tally: the connections of all lives with what was heard and accepted on each, so that what was returned is bounded by sums over connections (from C56); the pairing of ends is injective, so the sums are ordered. Witness for the failure: C144_false.
- **C146 Over TCP programs that have crashed receive everything again in the long run** — From the last start on, what a program does is a run of it alone, so that C127 and C134 apply to both programs; between them the invariant of C143 says what is under way, pairs of ends stay, and fair arrival empties the pipe (as in C128). A fair run with crashes of both programs is built, in which every pairing as specified contains the connection. Witness for the failure: the history of C128_false after crashes.
- **C147 When a TCP connection is gone, the proxy that uses it is told** — An error on the stream ends the connection (C130), and what C141 says of every endpoint applies to the endpoint's part of a run on a TCP socket. Witness for the failure: a fair run in which all users read, after the only connection was closed by the remote; by C92 recv could report the end only after an error. (`Props/Rt/ToldTcp`)
- **C148 When crashes have come to an end, questions are answered again** — C139 takes the question to the stub of the server's present life; as in C137 the call with the answer comes to an end, and C139, with the roles exchanged, takes the answer to the proxy. A proxy is cut off only if its own connection has ended, and a proxy sends on no other: so if the question was asked with the proxy itself (`C148_ask`), that exception is one about the connection of the question. (`Props/Rt/CrashRound`)
- **C149 Over TCP, when crashes have come to an end, questions are answered again** — C146 takes the question to the stub of the server's present life; C136, applied to the endpoint's part of the run since its last start, puts the answer into the queue of the same connection, and C146 takes it back. The failure: as in C146. A proxy is cut off only if its own connection has ended, and a proxy sends on no other: so if the question was asked with the proxy itself (`C149_ask_partial`), that exception is one about the connection of the question. (`Props/Rt/CrashRoundTcp`)

## Where the code disagrees with its documentation or with what a user expects

(Each has a negation theorem unless noted.)

1. `ClientId::with_prefix` ORs instead of replacing (C25).
2. `[T; N]::deserialize` never fails (C16).
3. `deserialize_len` neither checks that the declared length is available nor skips what the
   inner type leaves (C12, C13, C32).
4. `Vec<T>::deserialize` loops forever on element types that succeed without consuming (C14).
5. NUL inside strings (C20); UTF-16 LE decoding on big-endian hosts (C18).
6. Partial writes on failed serialization (C39, C64).
7. TP: offsets beyond 2^28-1 saturate (C47); split clears `more_segments` (C48); join ignores
   its own offset and rounds (C49).
8. Stub methods answer wrong-typed non-requests (C37).
9. Fixed-capacity buffers panic instead of returning an error (C21).
10. UDP reconnect closes the older connection (C60); TCP EOF (C63), TCP framing (C62).
11. A dropped service stays registered (C69).
12. One stray byte drops every message of a datagram (C52_trailing_bytes); this is the documented
    behaviour for malformed packets, but it affects the well-formed messages in front.
13. A message too large for a UDP datagram ends the connection (C71).
14. `try_read`/`try_write` answering `WouldBlock` closes a healthy TCP connection (C70).
15. `UdpSocket::listen(0)` panics (C58_zero_backlog_panics).
16. Datagrams longer than 1400 bytes are truncated by `recv_from` without notice; the truncated rest
    is decoded as if it were complete (C112_cut, C112_false).
17. `Interfaces::send` keeps the lock of the table entry while it waits for room in a full queue;
    `serve`/`proxy` for the same interface then stop the endpoint task (C76_hangs). The lock is that of
    a whole bucket of the table, so that requests and messages for other interfaces can be hit as
    well (second example of C76_hangs, C76_neighbours).
18. A connection that ends because of a failed send, or because its last handle is dropped, abandons
    the rest of the packet it is processing (C79_false).
19. After the socket has closed a listener, the channels of all its stubs are closed though the stubs
    are open, and `serve` keeps failing while one of them is alive (C78). On TCP one failed `accept`
    is enough for this (C93_false).
20. Connections opened for proxies are never registered, so that a second proxy to the same remote
    always connects again, which for UDP cuts the first one off for good (C85_false, C85_cut_off).
21. A `send_to` future that is not polled any more holds the lock of its address entry; `proxy` to
    this address then stops the endpoint task, a connection from it the listener, and `send_to` to it
    waits at all stubs (C100_endpoint_hangs, C100_listener_hangs, C100_senders_hang); C72_goes_on and
    C72_waits list all reasons for which the endpoint task waits.
22. When `recv_from` fails the receiving task of a UDP socket ends without telling anyone; receivers
    and listeners wait forever while the `UdpSocket` is kept (C80_failure_not_reported).
23. The token that should end the receiving task of a UDP socket is never cancelled: dropping the
    `UdpSocket` leaves the task running and the port bound (C81_runs_on, C81_accept_waits).
24. After the remote of a TCP connection has closed its sending side, the connection's task reads
    empty packets in an endless loop (C88_tcp_false: two steps lead back to the same state).
25. A TCP read that ends inside a message makes an endpoint return messages that nobody sent
    (C87_false); it is never delivered, in no run however long (C128_false).
26. A UDP server keeps a running connection for every address it has ever heard from, even for an
    empty datagram, until its last stub is dropped (C96_false).
27. A listener keeps the handle of every connection it has accepted, also after the connection has
    ended, and so do the shared tables, until something new is done with the same address; a TCP
    server grows with every client that connects from a port of its own (C101_false, C101_keeps).
28. A deadlock: `send_to` waits for the endpoint's task, which waits for the lock of an interface's
    entry, which is held by a connection that waits for room in the queue of the same stub; the stub
    cannot be read from while `send_to` runs (C104_deadlock, C104_for_ever; on sockets: C126_deadlock, C127_deadlock).
29. A call of `send` or `send_to` that waits for room in a connection's queue and is not polled keeps
    every other call on this connection from sending, even when the queue is empty (C105_stalls).
30. A value that was decoded can be one that cannot be encoded: a length-prefixed array that was
    absent, or a length-prefixed string that came as UTF-16 (C106_array_false, C106_string_false).
31. The sample programs stop at the first datagram from a stranger (`expect`), wait for ever after a
    lost one, take any response for that of the current request, and cut requests after 64 bytes,
    which decode as shorter ones (C110_stranger_stops_answerer, C110_loss_stalls, C110_out_of_step,
    C110_long_request_cut).
32. `TpHeader::join` cannot tell segments of different messages apart, and nothing in the library
    does it for the caller: segments of two messages are joined to one that nobody sent
    (C111_join_mixes), and even a receiver that looks at all ids does so after two losses, if a
    session is used again (C111_same_identity).
33. Nothing in the library sets the TP flag on segments: unless the caller does, each segment is accepted
    as a whole message whose body begins with the segment header (C113_unmarked).
34. Messages are queued by interface, whoever sent them, and the connections wait for room: a datagram
    from one remote can make the socket lose those of another (C114_false).
35. `process_new_connection` queues a new connection before it puts the datagram into it: `accept` on another
    thread can return a connection that does not yet have the datagram, against the documentation of
    `Listener` (C116_false).
36. The traits `Stub` and `Proxy` document an error if the endpoint has been dropped or the message is invalid.
    Stubs and proxies keep listener and connections running without the endpoint, and messages are serialized
    only after the call has returned `Ok` (C117_false, C117_any_message, C117_invalid).
37. An element of an array that cannot be decoded is replaced by the default, and the next one is read from
    where the attempt has stopped, which can be the middle of the malformed element (C16_shifts).
38. `TcpSocket::connect` binds the new socket to the endpoint's own address. With `SO_REUSEADDR` Linux allows
    this "except when there is an active listening socket bound to the address" (socket(7)): an endpoint on a
    TCP socket that serves an interface cannot connect to anybody, and cannot serve again right after its last
    stub was dropped (C125_no_connect, C125_no_proxy, C125_no_listen).
39. A TCP client that closes its connection leaves a task behind that reads nothing from the stream in a loop
    that never waits, and a socket, until the last stub is dropped (C130_false, C130_stays, C130_spins,
    C130_many). A client whose server closes the connection is never told: recv waits for ever (C147_false).
40. The endpoint task waits for `connect` inside its loop. A remote that does not answer a connection attempt
    keeps every call of `serve` and `proxy`, and every `send_to` that needs a new connection, from returning until
    the socket gives up (C138_blocked, C138_false).
41. Nothing tells a program from the one that had its address before. An answer to a request of a program that
    has crashed is returned by a proxy of the program that was started in its place, as answer to a new request
    that has not yet been sent (C140_false).
