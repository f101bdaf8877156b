{"id": "C01", "title": "Fixed-width numbers are big-endian and round-trip", "statement": "Serializing any u8/u16/u32/u64/i8/i16/i32/i64/f32/f64 appends exactly its size_of bytes, in big-endian (two's complement, IEEE bit pattern) order, and deserializing those bytes followed by any other bytes returns the same value and leaves exactly the other bytes.", "quantifier": "every value of each of the ten numeric types and every byte string following it in the buffer", "why_tests_cant": "u64/f64 value spaces and the unbounded set of trailing buffer contents cannot be enumerated; the repo tests a handful of literals.", "anchors": ["rsomeip-bytes/src/ser.rs: serialize_basic_type!", "rsomeip-bytes/src/de.rs: deserialize_basic_type!"]}
{"id": "C02", "title": "Short reads of numbers are reported exactly and consume nothing", "statement": "Deserializing a number from a buffer holding fewer bytes than the number's size returns InsufficientData with expected = the number's size and available = the bytes left, and leaves the buffer untouched; with enough bytes it never fails.", "quantifier": "every numeric type and every buffer content and length", "why_tests_cant": "Buffers are unbounded; tests sample a few short slices.", "anchors": ["rsomeip-bytes/src/de.rs: deserialize_basic_type!, DeserializeError::InsufficientData"]}
{"id": "C03", "title": "Booleans", "statement": "A bool is one byte, 1 for true and 0 for false; decoding looks only at the lowest bit of the byte, so every byte decodes, and encode-then-decode is the identity with the rest of the buffer preserved.", "quantifier": "both booleans, all 256 byte values, all trailing contents", "why_tests_cant": "Trailing contents are unbounded.", "anchors": ["rsomeip-bytes/src/ser.rs: impl Serialize for bool", "rsomeip-bytes/src/de.rs: impl Deserialize for bool"]}
{"id": "C04", "title": "size_hint, returned size and bytes written always agree", "statement": "Whenever serialize (or serialize_len) returns Ok(n), exactly n bytes were appended to the buffer and n equals size_hint() (plus the width of the length field for serialize_len). This holds for every type assembled from numbers, bool, Bytes, strings, Vec/slices, arrays, tuples and length-prefixed fields, nested to any depth.", "quantifier": "every type in that closed family (any nesting), every value of it, every initial buffer", "why_tests_cant": "The family of types is infinite (nesting), as are values; the length prefix silently corrupts the stream if size_hint is wrong for any of them.", "anchors": ["rsomeip-bytes/src/ser.rs: Serialize::serialize, Serialize::size_hint, Serialize::serialize_len, SerializeString", "rsomeip-bytes/src/macros.rs: serialize_into!, size_hint!"]}
{"id": "C05", "title": "Serialization only appends", "statement": "serialize never changes or removes bytes already in the buffer, and the bytes it appends do not depend on what was there before, whether it succeeds or fails.", "quantifier": "every type in the family, every value, every initial buffer content", "why_tests_cant": "Universally quantified over buffers and types.", "anchors": ["rsomeip-bytes/src/ser.rs: Serialize::serialize"]}
{"id": "C06", "title": "Length-prefixed serialization: exact length, exact limit, no write on overflow", "statement": "serialize_len succeeds whenever size_hint() fits the chosen 1/2/4-byte field (and the inner serialization succeeds): it then writes the big-endian number of payload bytes followed by exactly the payload. If size_hint() exceeds the field it returns InvalidLength{required: size_hint(), maximum: 255|65535|4294967295} and writes nothing at all.", "quantifier": "all three field widths, every payload type and value, including sizes straddling each limit", "why_tests_cant": "The 4-byte limit is 4 GiB, out of reach for a unit test; the property is about every size.", "anchors": ["rsomeip-bytes/src/ser.rs: Serialize::serialize_len, SerializeError::InvalidLength", "rsomeip-bytes/src/lib.rs: LengthField"]}
{"id": "C07", "title": "Round trip for every well-formed type", "statement": "For every type in which greedy components (Vec, Bytes) are in last position or length-prefixed and Vec elements are non-empty, deserializing what serialize wrote returns the value; for self-delimiting types this holds with arbitrary following bytes, which are left untouched.", "quantifier": "every well-formed type of the family (any nesting), every value whose strings contain no NUL, every suffix, every host (big-endian hosts: types without little-endian UTF-16 strings, see C18)", "why_tests_cant": "Infinite family of types; nested length fields interact with Take limits in ways fixed examples do not reach.", "anchors": ["rsomeip-bytes/src/ser.rs: Serialize", "rsomeip-bytes/src/de.rs: Deserialize"]}
{"id": "C08", "title": "Encodings are prefix-free and injective", "statement": "Two different values of a self-delimiting type never serialize to byte strings one of which is a prefix of the other; two different values of a well-formed type never serialize to the same bytes.", "quantifier": "every pair of values of every well-formed type", "why_tests_cant": "Statement about all pairs of values.", "anchors": ["rsomeip-bytes/src/ser.rs: Serialize", "rsomeip-bytes/src/de.rs: Deserialize"]}
{"id": "C09", "title": "Deserialization never panics", "statement": "No deserializer panics on any input: every Buf::get_* is guarded by a sufficient remaining() check. The outcome is a value, a DeserializeError, or (Vec of elements that can consume nothing) non-termination.", "quantifier": "every type of the family and every byte string", "why_tests_cant": "All byte strings.", "anchors": ["rsomeip-bytes/src/de.rs: Deserialize"]}
{"id": "C10", "title": "Deserialization consumes a prefix only", "statement": "Whatever the outcome, the buffer after deserialize is a suffix of the buffer before it: nothing is reordered, duplicated or invented.", "quantifier": "every type and every input", "why_tests_cant": "All inputs; error paths included.", "anchors": ["rsomeip-bytes/src/de.rs: Deserialize"]}
{"id": "C11", "title": "A length field confines the inner deserializer", "statement": "deserialize_len never looks at or consumes bytes beyond the declared length: replacing everything after the declared region by other bytes changes neither the outcome nor which bytes inside the region were consumed.", "quantifier": "every inner type, every length field width, every declared length, every pair of continuations", "why_tests_cant": "Non-interference over pairs of inputs.", "anchors": ["rsomeip-bytes/src/de.rs: Deserialize::deserialize_len"]}
{"id": "C12", "title": "A length-prefixed region is consumed as a whole", "statement": "After a successful deserialize_len the buffer has advanced past exactly the length field and the declared number of bytes. (The code guarantees this only if the inner type consumes its whole region and the region is completely present; otherwise the next field is read from the middle of the region.)", "quantifier": "every inner type and input", "why_tests_cant": "Depends on how much the inner type consumes, for every declared length.", "anchors": ["rsomeip-bytes/src/de.rs: Deserialize::deserialize_len"]}
{"id": "C13", "title": "A declared length longer than the input is rejected", "statement": "deserialize_len returns an error when the buffer holds fewer bytes than the declared length. (The code rejects this only if the inner type needs the missing bytes; Vec and Bytes accept a truncated region.)", "quantifier": "every inner type, length and buffer", "why_tests_cant": "Relation between declared and available length over all inputs.", "anchors": ["rsomeip-bytes/src/de.rs: Deserialize::deserialize_len", "rsomeip-bytes/src/de.rs: impl Deserialize for Vec<T>", "rsomeip-bytes/src/de.rs: impl Deserialize for Bytes"]}
{"id": "C14", "title": "Vec deserialization terminates", "statement": "Vec<T>::deserialize terminates on every finite buffer. (Holds for every element type that consumes at least one byte whenever it succeeds on a non-empty buffer; the code loops forever otherwise, e.g. Vec<[u16; 1]> on a single byte.)", "quantifier": "every element type and every buffer", "why_tests_cant": "Non-termination cannot be observed by a finite test, and the property ranges over all element types.", "anchors": ["rsomeip-bytes/src/de.rs: impl Deserialize for Vec<T>", "rsomeip-bytes/src/de.rs: impl Deserialize for [T; N]"]}
{"id": "C15", "title": "Vec of fixed-size elements: success iff the input is a whole number of elements", "statement": "For an element type of fixed non-zero width w that decodes any w bytes, Vec::deserialize succeeds exactly when the buffer length is a multiple of w, returning length/w elements in order and emptying the buffer; otherwise it returns InsufficientData and no partial result.", "quantifier": "every numeric element type, every buffer length and content", "why_tests_cant": "All buffer lengths.", "anchors": ["rsomeip-bytes/src/de.rs: impl Deserialize for Vec<T>"]}
{"id": "C16", "title": "Array deserialization reports missing data", "statement": "[T; N]::deserialize fails when the buffer ends early. (The code never fails: missing or malformed elements are silently replaced by T::default(); it succeeds with the true values exactly when the buffer holds all N elements, and after a malformed element goes on from where that was given up, so that later elements are read from the middle of it.)", "quantifier": "every element type, N and buffer", "why_tests_cant": "All buffers and N.", "anchors": ["rsomeip-bytes/src/de.rs: impl Deserialize for [T; N]"]}
{"id": "C17", "title": "UTF-8 strings round-trip", "statement": "serialize_utf8 writes EF BB BF, the UTF-8 bytes and a zero byte (size_hint_utf8 bytes in total, optionally length-prefixed); String::deserialize returns the original string and leaves all following bytes, for every string without NUL characters.", "quantifier": "every string of Unicode scalar values without U+0000, every suffix, every length field", "why_tests_cant": "All strings over 1.1 million scalar values.", "anchors": ["rsomeip-bytes/src/ser.rs: SerializeString::serialize_utf8", "rsomeip-bytes/src/de.rs: impl Deserialize for String"]}
{"id": "C18", "title": "UTF-16 strings round-trip", "statement": "serialize_utf16_be / serialize_utf16_le write the matching byte order mark, the UTF-16 code units (with surrogate pairs) in that order and a zero unit; String::deserialize returns the original string and leaves all following bytes, for every NUL-free string. (For little-endian encoding the code achieves this only on little-endian hosts.)", "quantifier": "every NUL-free string, every suffix, both byte orders, both host byte orders", "why_tests_cant": "All strings, and hosts a CI does not run on.", "anchors": ["rsomeip-bytes/src/ser.rs: SerializeString::serialize_utf16_be, serialize_utf16_le, Utf16String", "rsomeip-bytes/src/de.rs: impl Deserialize for String"]}
{"id": "C19", "title": "String decoding is strict", "statement": "If String::deserialize succeeds with s, the bytes it consumed are exactly the encoding of s in one of the three formats: bad or missing marks, ill-formed UTF-8 (overlong, surrogates, out of range), unpaired surrogates and missing terminators are all rejected, and nothing is normalised.", "quantifier": "every byte string (on a little-endian host)", "why_tests_cant": "All byte strings, including every ill-formed sequence.", "anchors": ["rsomeip-bytes/src/de.rs: impl Deserialize for String"]}
{"id": "C20", "title": "Strings containing NUL survive", "statement": "A string containing U+0000 round-trips too. (It does not: decoding stops at the first NUL and leaves the rest of the string in the buffer, where it is taken for the next field.)", "quantifier": "every string containing a NUL character", "why_tests_cant": "All strings.", "anchors": ["rsomeip-bytes/src/ser.rs: SerializeString", "rsomeip-bytes/src/de.rs: impl Deserialize for String"]}
{"id": "C21", "title": "Enough room means no panic; size_hint bytes are enough", "statement": "Serializing into a buffer with at least size_hint() free bytes never panics and fills exactly size_hint() of them; with fewer free bytes than the value needs, a fixed-capacity buffer panics (the documented SerializeError is never produced).", "quantifier": "every type, value and amount of free space", "why_tests_cant": "All capacities.", "anchors": ["rsomeip-bytes/src/ser.rs: Serialize::serialize"]}
{"id": "C22", "title": "InsufficientData errors are truthful", "statement": "Every InsufficientData{expected, available} produced by any deserializer has available < expected and available no larger than the input.", "quantifier": "every type and input", "why_tests_cant": "All inputs and nestings.", "anchors": ["rsomeip-bytes/src/de.rs: DeserializeError::InsufficientData"]}
{"id": "C23", "title": "Message and request ids are exact pairs of 16-bit halves", "statement": "from_u32/as_u32 and the From conversions are mutually inverse bijections between u32 and (service, method) resp. (client, session); service/client is the upper half; and serializing the id equals serializing its two halves in order. The ids of a rsomeip Message (id, request, with_id, with_request) are the same pairs.", "quantifier": "all 2^32 ids", "why_tests_cant": "2^32 values times two types; tests check one literal.", "anchors": ["rsomeip-proto/src/primitives.rs: MessageId, RequestId", "rsomeip/src/someip.rs: Message::id, Message::request"]}
{"id": "C24", "title": "Ids order like their numbers", "statement": "The derived ordering on MessageId and RequestId agrees with the ordering of as_u32().", "quantifier": "all pairs of ids", "why_tests_cant": "2^64 pairs.", "anchors": ["rsomeip-proto/src/primitives.rs: MessageId, RequestId (derive Ord)"]}
{"id": "C25", "title": "ClientId prefix can be set", "statement": "client.with_prefix(p).prefix() == p and the low byte is unchanged. (The code ORs the prefix in, so it holds only if the old prefix is a subset of p's bits.)", "quantifier": "all client ids and prefixes", "why_tests_cant": "2^24 combinations; the repo test uses one id with an empty prefix.", "anchors": ["rsomeip-proto/src/primitives.rs: ClientId::prefix, ClientId::with_prefix"]}
{"id": "C26", "title": "Session ids never become zero and cycle through all 65535 values", "statement": "Starting from an enabled session id, any number of increment() calls keeps it enabled (non-zero); increment returns the old id; any 65535 consecutive ids are pairwise distinct and the 65536th repeats the first.", "quantifier": "every start id and every number of increments", "why_tests_cant": "Unbounded histories with wrap-around.", "anchors": ["rsomeip-proto/src/primitives.rs: SessionId::increment, SessionId::is_enabled"]}
{"id": "C27", "title": "Message type and return code bytes are preserved", "statement": "from_u8 then as_u8 is the identity on all bytes, and as_u8 then from_u8 is the identity on every value from_u8 can produce; the five message types and sixteen return codes have their SOME/IP numbers and 0x10..=0x5e are reserved.", "quantifier": "all 256 bytes for each enum (in both crates)", "why_tests_cant": "Exhaustive over the domain and over hand-made enum values such as Reserved(0).", "anchors": ["rsomeip-proto/src/primitives.rs: MessageType, ReturnCode", "rsomeip/src/someip.rs: MessageType, ReturnCode"]}
{"id": "C28", "title": "Message type flags are independent of the type", "statement": "with_flags sets or clears exactly the given flag bits; is_tp tells whether bit 0x20 is set; as_type ignores the flag; from_type/as_type round-trips the five standard types; and setting the message type of a header discards the TP flag.", "quantifier": "all field bytes, flag bytes and types", "why_tests_cant": "All combinations.", "anchors": ["rsomeip-proto/src/primitives.rs: MessageTypeField"]}
{"id": "C29", "title": "SOME/IP wire layout", "statement": "A serialized message is exactly: service(2) method(2) length(4) client(2) session(2) protocol(1) interface(1) type(1) return code(1) payload, big-endian, with length = 8 + payload size; to_bytes succeeds iff that length fits in 32 bits.", "quantifier": "every message over every payload type", "why_tests_cant": "All messages and the 4 GiB boundary.", "anchors": ["rsomeip-proto/src/message.rs: impl Serialize for GenericMessage, impl Serialize for Header, GenericMessage::to_bytes"]}
{"id": "C30", "title": "Messages round-trip, alone and in streams", "statement": "Deserializing a serialized message returns it (a return code built as an alias, such as Reserved(0), comes back as the code with the same number); a buffer of concatenated messages deserialized as Vec<Message<Bytes>> returns exactly these messages in order.", "quantifier": "every message, every list of messages, every payload codec that round-trips", "why_tests_cant": "Unbounded message lists.", "anchors": ["rsomeip-proto/src/message.rs: impl Deserialize for GenericMessage, GenericMessage::from_bytes"]}
{"id": "C31", "title": "Decoded messages re-encode to the same bytes", "statement": "If a Message<Bytes> is decoded from a buffer, re-encoding it gives exactly the bytes consumed, provided the declared length does not exceed the buffer.", "quantifier": "every byte string", "why_tests_cant": "All byte strings.", "anchors": ["rsomeip-proto/src/message.rs: impl Serialize/Deserialize for GenericMessage"]}
{"id": "C32", "title": "Undersized messages are rejected, truncated ones detected", "statement": "Decoding Message<Bytes> fails with InsufficientData if fewer than 16 bytes are present or the length field is below 8; and it fails if the payload is shorter than declared. (The last part does not hold: a truncated payload is accepted as a complete message.)", "quantifier": "every byte string", "why_tests_cant": "All byte strings and declared lengths.", "anchors": ["rsomeip-proto/src/message.rs: impl Deserialize for GenericMessage", "rsomeip-bytes/src/de.rs: deserialize_len"]}
{"id": "C33", "title": "Builders change only what they name", "statement": "Each with_*/map/replace builder on GenericMessage, Header and rsomeip's Message changes exactly the named field; later settings of the same field win and settings of different fields commute; with_id equals setting both halves.", "quantifier": "every message and every sequence of builder calls", "why_tests_cant": "All messages and call sequences.", "anchors": ["rsomeip-proto/src/message.rs: GenericMessage::with_*, map*, replace_*; Header::with_*", "rsomeip/src/someip.rs: Message::with_*"]}
{"id": "C34", "title": "Responses and errors keep the conversation identity", "statement": "into_response and into_error keep service, method, client, session, versions and body; only the message type and return code change, to Response resp. Error with the return code passed in.", "quantifier": "every message and code", "why_tests_cant": "All messages.", "anchors": ["rsomeip-proto/src/message.rs: GenericMessage::into_response, into_error"]}
{"id": "C35", "title": "Interface check accepts exactly the legal messages", "statement": "check accepts a message iff its interface version matches, its method id is registered, and (direction, flavor, method kind, message type) is one of the legal combinations: requests to and responses from stub methods, fire-and-forget to stub procedures, notifications from stub events, and mirrored for proxies.", "quantifier": "every interface, message and direction", "why_tests_cant": "All interfaces (finite maps of any size) and messages.", "anchors": ["rsomeip-proto/src/interface.rs: Interface::check"]}
{"id": "C36", "title": "Check failures are reported with the first applicable cause", "statement": "A rejected message reports WrongInterfaceVersion before UnknownMethod before WrongMessageType; poll and process report WrongProtocolVersion before UnknownService before any interface failure.", "quantifier": "every interface/endpoint and message", "why_tests_cant": "All combinations.", "anchors": ["rsomeip-proto/src/interface.rs: Interface::check", "rsomeip-proto/src/endpoint.rs: Endpoint::poll, Endpoint::process"]}
{"id": "C37", "title": "Only requests are answered with errors", "statement": "An incoming rejected message is handed back as InvalidMessage (to be answered with an error) only if it is a Request; everything else is silently dropped. (Violated by stub methods: any wrong-typed message, even Response/Error/Notification, addressed to a method is reported as InvalidMessage.)", "quantifier": "every endpoint and every incoming message", "why_tests_cant": "All combinations; error loops between peers arise only for untested type/kind pairs.", "anchors": ["rsomeip-proto/src/interface.rs: Interface::check, MessageError::invalid_or_dropped", "rsomeip-proto/src/endpoint.rs: Endpoint::poll, EndpointError::invalid_or_dropped"]}
{"id": "C38", "title": "poll accepts exactly the messages it should and does not alter them", "statement": "poll returns Ok(m) iff the buffer decodes to m, its protocol version is 1, its service is registered and the interface accepts it as incoming; rejected messages are returned unmodified inside the error; undecodable data yields InvalidData.", "quantifier": "every endpoint and byte string", "why_tests_cant": "All byte strings and endpoint configurations.", "anchors": ["rsomeip-proto/src/endpoint.rs: Endpoint::poll"]}
{"id": "C39", "title": "process writes all or nothing", "statement": "process returns Ok(n) iff the message is legal and serializable, having appended exactly its n wire bytes; a message rejected by the checks leaves the buffer untouched and is returned unmodified. (If serialization itself fails, the 4 message-id bytes have already been written.)", "quantifier": "every endpoint, message and buffer", "why_tests_cant": "All messages and buffers; the failing case needs 4 GiB payloads.", "anchors": ["rsomeip-proto/src/endpoint.rs: Endpoint::process"]}
{"id": "C40", "title": "Proxy and stub views of an interface are dual", "statement": "For the same interface, a message is a legal outgoing message of the proxy iff it is a legal incoming message of the stub, and vice versa; into_stub/into_proxy keep the version and methods.", "quantifier": "every interface and message", "why_tests_cant": "All combinations.", "anchors": ["rsomeip-proto/src/interface.rs: Interface::check, into_stub, into_proxy"]}
{"id": "C41", "title": "What one endpoint sends, the peer accepts unchanged", "statement": "If an endpoint processes a message into bytes and the peer endpoint carries the opposite flavor of the same interface under the same service id, polling those bytes at the peer returns exactly the message.", "quantifier": "every pair of such endpoints and every message and payload codec that round-trips", "why_tests_cant": "All endpoints and messages.", "anchors": ["rsomeip-proto/src/endpoint.rs: Endpoint::poll, Endpoint::process"]}
{"id": "C42", "title": "Endpoint and interface registries behave as maps", "statement": "After any sequence of insert/with_*/remove calls, get returns the value of the last insert of that key not followed by a remove; insert and remove return the previous value; other keys are unaffected.", "quantifier": "every sequence of registry operations", "why_tests_cant": "Unbounded histories.", "anchors": ["rsomeip-proto/src/endpoint.rs: Endpoint::insert/remove/get/with_interface", "rsomeip-proto/src/interface.rs: Interface::insert/remove/get/with_method/with_procedure/with_event"]}
{"id": "C43", "title": "TP segmentation partitions the body", "statement": "Repeatedly splitting a fresh TP header with a limit of at least 16 terminates; the segment bodies concatenate to the original body, every segment but the last has the same size, a non-zero multiple of 16 not exceeding the limit and more_segments set; the last is non-empty if the body was, fits the limit and has more_segments clear; each offset equals the bytes before it divided by 16. Limits below 16 leave the header unchanged.", "quantifier": "every body, every limit", "why_tests_cant": "Bodies and limits unbounded.", "anchors": ["rsomeip-proto/src/tp.rs: TpHeader::split"]}
{"id": "C44", "title": "TP reassembly inverts segmentation", "statement": "Joining the segments of a body in order gives back the body with more_segments clear and never fails.", "quantifier": "every body and limit >= 16", "why_tests_cant": "Unbounded number of segments.", "anchors": ["rsomeip-proto/src/tp.rs: TpHeader::split, TpHeader::join"]}
{"id": "C45", "title": "TP reassembly rejects lost, duplicated and reordered segments", "statement": "While reassembling a split body, joining any segment other than the next one returns WrongOffset, joining anything after the last returns UnexpectedSegment; in both cases the partial message is unchanged and the segment is given back.", "quantifier": "every body, limit, reassembly point and segment", "why_tests_cant": "All delivery schedules of the network.", "anchors": ["rsomeip-proto/src/tp.rs: TpHeader::join, TpError"]}
{"id": "C46", "title": "A completed reassembly contains exactly the original body", "statement": "Feeding the segments of a split body to join in any order, with any losses and duplicates, after starting from the first segment: whenever the accumulated header reports no more segments, its body is the original body.", "quantifier": "every delivery history (any sequence over the segments)", "why_tests_cant": "Unbounded adversarial histories.", "anchors": ["rsomeip-proto/src/tp.rs: TpHeader::join"]}
{"id": "C47", "title": "TP header wire round trip", "statement": "Serializing a TP header and deserializing it returns the same offset, flag and body, or serialization fails. (Holds for offsets up to 2^28-1 units; larger offsets up to 0xfffffff0 are accepted and silently written as 2^28-1.)", "quantifier": "every offset, flag and body", "why_tests_cant": "Needs offsets above 2^28.", "anchors": ["rsomeip-proto/src/tp.rs: impl Serialize for TpHeader, impl Deserialize for TpHeader"]}
{"id": "C48", "title": "Splitting a non-final segment keeps it non-final", "statement": "Splitting a header that already has more_segments set keeps the flag set on its last piece. (It does not: the flag is cleared.)", "quantifier": "every header and limit", "why_tests_cant": "All headers.", "anchors": ["rsomeip-proto/src/tp.rs: TpHeader::split"]}
{"id": "C49", "title": "join only accepts the continuation of the body", "statement": "join succeeds only if the segment's byte offset equals the number of body bytes held plus the base offset. (Violated for bodies whose length is not a multiple of 16, and for headers with non-zero base offset.)", "quantifier": "every pair of headers", "why_tests_cant": "All pairs of headers.", "anchors": ["rsomeip-proto/src/tp.rs: TpHeader::join"]}
{"id": "C50", "title": "Segmented messages travel end to end", "statement": "Splitting a message's body, sending every segment as its own message over the wire and joining the decoded segments at the receiver yields the original message; headers are the same on all segments.", "quantifier": "every message, every limit >= 16, bodies up to 2^32 bytes", "why_tests_cant": "Unbounded bodies.", "anchors": ["rsomeip-proto/src/tp.rs: Message::into_segment, wrap_segment, unwrap_segment", "rsomeip-proto/src/message.rs: GenericMessage"]}
{"id": "C51", "title": "Both crates speak the same wire format", "statement": "The rsomeip message serializes to the same bytes as the rsomeip-proto message with the corresponding fields, and each decodes the other's output to the corresponding message.", "quantifier": "every message and payload", "why_tests_cant": "All messages.", "anchors": ["rsomeip/src/someip.rs: Message", "rsomeip-proto/src/message.rs: GenericMessage"]}
{"id": "C52", "title": "A datagram is delivered completely or not at all", "statement": "The messages of a received datagram are routed in order if the whole datagram decodes, and none is routed otherwise.", "quantifier": "every datagram", "why_tests_cant": "All datagrams.", "anchors": ["rsomeip/src/endpoint/v1/connection.rs: ReceiverTask::recv"]}
{"id": "C53", "title": "Messages are routed by service id and interface version only to the owner", "statement": "Every message obtained from a Stub or Proxy carries exactly the service id and interface version it was created for, and was contained in a packet received from the reported address.", "quantifier": "every execution: any packets, any interleaving of tasks, any user operations", "why_tests_cant": "All schedules and histories.", "anchors": ["rsomeip/src/endpoint/v1/interface.rs: Interfaces::send", "rsomeip/src/endpoint.rs: InterfaceId", "rsomeip/src/endpoint/v1/connection.rs: ReceiverTask"]}
{"id": "C54", "title": "At most one live handle per interface", "statement": "At no time do two Stub/Proxy handles of one endpoint that can still receive messages share service id and interface version; asking for a second one is refused with 'already exists'.", "quantifier": "every execution", "why_tests_cant": "All schedules and histories.", "anchors": ["rsomeip/src/endpoint/v1.rs: EndpointTask::stub, EndpointTask::proxy, create_interface", "rsomeip/src/endpoint/v1/interface.rs: Interfaces::check, share, send"]}
{"id": "C55", "title": "A proxy hears only its remote", "statement": "Proxy::recv returns only messages whose source address is the proxy's remote; other messages queued for the interface are skipped, and order is kept.", "quantifier": "every queue content", "why_tests_cant": "All queues.", "anchors": ["rsomeip/src/endpoint/v1.rs: Proxy::recv"]}
{"id": "C56", "title": "Per-connection order, no duplication, no invention", "statement": "For each connection and interface, the sequence of messages put in the interface's queue is a subsequence of the sequence of messages contained in the packets that connection received, in order, each at most once.", "quantifier": "every execution", "why_tests_cant": "All schedules.", "anchors": ["rsomeip/src/endpoint/v1/connection.rs: ReceiverTask", "rsomeip/src/endpoint/v1/interface.rs: Interfaces::send_all"]}
{"id": "C57", "title": "UDP demultiplexing: packets go to their source's connection", "statement": "Every packet a UDP connection receives came from that connection's remote address, in arrival order; packets are lost only by lag, a full backlog, no listener, or a dropped receiver.", "quantifier": "every history of packets, connects, listens, drops", "why_tests_cant": "Unbounded histories.", "anchors": ["rsomeip/src/socket/udp.rs: ReceiverTask::process_packet, process_new_connection, UdpSocket::connect, listen"]}
{"id": "C58", "title": "UDP accept queue", "statement": "For a packet from an unknown address: with a listener and free backlog it creates exactly one pending connection whose first packet is that packet; with a full backlog or no listener the state is unchanged and the packet is lost; the backlog never exceeds its bound.", "quantifier": "every history", "why_tests_cant": "Unbounded histories.", "anchors": ["rsomeip/src/socket/udp.rs: process_new_connection, UdpListener::accept"]}
{"id": "C59", "title": "UDP size limit", "statement": "UdpSender::send hands a buffer to the OS only if it has at most 1400 bytes, and otherwise returns it unchanged in SendError.", "quantifier": "every buffer", "why_tests_cant": "All sizes.", "anchors": ["rsomeip/src/socket/udp.rs: UdpSender::send, MAX_DATAGRAM_SIZE"]}
{"id": "C60", "title": "Connecting again does not break an existing UDP connection", "statement": "Creating a second proxy towards a remote keeps the first proxy working. (Violated: the second connect replaces the first one's receive channel, which closes the first connection.)", "quantifier": "every history", "why_tests_cant": "All histories.", "anchors": ["rsomeip/src/socket/udp.rs: UdpSocket::connect", "rsomeip/src/endpoint/v1.rs: EndpointTask::connection_or_connect"]}
{"id": "C61", "title": "TCP send transmits exactly the buffer", "statement": "TcpSender::send either writes all bytes of the buffer in order to the stream and returns Ok, or returns an error having written some prefix; it never skips or repeats bytes, for every pattern of partial writes.", "quantifier": "every buffer and every sequence of OS write results", "why_tests_cant": "All partial-write patterns.", "anchors": ["rsomeip/src/socket/tcp.rs: TcpSender::send"]}
{"id": "C62", "title": "TCP delivery is independent of segmentation", "statement": "The messages delivered from a TCP stream do not depend on how the stream is cut into reads. (Violated: each read is decoded in isolation; messages crossing a read boundary or longer than 1400 bytes are truncated or lost. It holds when every read contains whole messages.)", "quantifier": "every message sequence and every chunking of its byte stream", "why_tests_cant": "All chunkings.", "anchors": ["rsomeip/src/socket/tcp.rs: TcpReceiver::recv", "rsomeip/src/endpoint/v1/connection.rs: ReceiverTask::recv"]}
{"id": "C63", "title": "End of a TCP stream closes the connection", "statement": "When the peer closes the stream the receiver reports Closed. (Violated: a zero-length read is returned as an empty packet, forever.)", "quantifier": "every continuation after end of stream", "why_tests_cant": "Infinite behaviour.", "anchors": ["rsomeip/src/socket/tcp.rs: TcpReceiver::recv", "rsomeip/src/endpoint/v1/connection.rs: ReceiverTask::recv"]}
{"id": "C64", "title": "Malformed outgoing messages are dropped", "statement": "A message that fails to serialize is not put on the wire. (Violated: the partially filled buffer is sent.)", "quantifier": "every message", "why_tests_cant": "Needs messages above 4 GiB.", "anchors": ["rsomeip/src/endpoint/v1/connection.rs: SenderTask::send"]}
{"id": "C65", "title": "Shared maps are linearizable", "statement": "SharedMap get/insert/remove by any number of holders behave like one sequential map: get returns the last insert not removed; insert and remove return the previous value.", "quantifier": "every interleaving of operations by any number of clones", "why_tests_cant": "All interleavings.", "anchors": ["rsomeip/src/support/collections.rs: SharedMap"]}
{"id": "C66", "title": "Responses are delivered at most once", "statement": "ResponseReceiver::get returns the value given to ResponseSender::send, or None if the sender was dropped without sending; never anything else.", "quantifier": "every interleaving of send, drop and get", "why_tests_cant": "All interleavings.", "anchors": ["rsomeip/src/support/sync.rs: ResponseSender, ResponseReceiver"]}
{"id": "C67", "title": "Log formats identify messages", "statement": "The Display forms of message id, request id, header and message have fixed width and determine the values shown: two different ids never print alike. Different message types and different return codes never print alike either.", "quantifier": "all pairs of ids/messages", "why_tests_cant": "All pairs.", "anchors": ["rsomeip-proto/src/primitives.rs: Display for MessageId, RequestId", "rsomeip-proto/src/message.rs: Display for Header, GenericMessage", "rsomeip/src/endpoint.rs: Display for InterfaceId", "rsomeip/src/someip.rs: Display for Message"]}
{"id": "C68", "title": "A stub reconnects exactly when needed", "statement": "Stub::send_to opens a new connection iff no live connection to the destination is registered; a send on a dead connection fails with 'not connected' and removes the stale entry, so the next send reconnects.", "quantifier": "every history of connections and sends", "why_tests_cant": "All histories.", "anchors": ["rsomeip/src/endpoint/v1.rs: Stub::send_to, Stub::connect", "rsomeip/src/endpoint/v1/connection.rs: Connections::send_to, check, share_and_store"]}
{"id": "C69", "title": "A dropped service can be offered again", "statement": "After a Stub is dropped, serving the same interface succeeds. (Violated while another stub keeps the listener alive: refused with 'already exists' until a message for the dead interface arrives.)", "quantifier": "every history", "why_tests_cant": "All histories.", "anchors": ["rsomeip/src/endpoint/v1.rs: EndpointTask::stub", "rsomeip/src/endpoint/v1/interface.rs: Interfaces::check, Interfaces::send", "rsomeip/src/endpoint/v1/listener.rs: CommandTask"]}
{"id": "C70", "title": "False alarms do not close a TCP connection", "statement": "A healthy TCP connection stays usable when the operating system reports readiness although no byte can be read or written. (Violated: the following try_read/try_write error WouldBlock is treated as closed / as a send error.)", "quantifier": "every pattern of operating system answers", "why_tests_cant": "Spurious readiness cannot be provoked in a test.", "anchors": ["rsomeip/src/socket/tcp.rs: TcpReceiver::recv, TcpSender::send"]}
{"id": "C71", "title": "A message too large for a datagram only fails itself", "statement": "Sending a message that does not fit a datagram does not disturb other messages of the connection. (Violated: the sender's refusal ends the connection task; nothing behind the message is sent.)", "quantifier": "all lists of messages", "why_tests_cant": "All lists of messages of all sizes.", "anchors": ["rsomeip/src/endpoint/v1/connection.rs: SenderTask::send", "rsomeip/src/socket/udp.rs: UdpSender::send"]}
{"id": "C72", "title": "Requests to an endpoint are answered in order, each once", "statement": "Calls of Endpoint::serve and Endpoint::proxy return in the order they were made, each at most once; six steps of the endpoint task suffice for one call; and the task can always go on, except for a listed set of reasons (nothing to do, a full queue, a locked table entry).", "quantifier": "every history and every schedule", "why_tests_cant": "All schedules; absence of an answer cannot be observed in finite time.", "anchors": ["rsomeip/src/endpoint/v1.rs: Endpoint::serve, Endpoint::proxy, EndpointTask"]}
{"id": "C73", "title": "Messages are sent to the peer they are addressed to", "statement": "When Stub::send_to(m, a) returns Ok, m is in the queue of a connection to a; when Proxy::send(m) returns Ok, m is in the queue of a connection to the proxy's remote. Nothing is sent that was not given to one of the two.", "quantifier": "every history and every schedule", "why_tests_cant": "All interleavings of sends, reconnects and accepted connections.", "anchors": ["rsomeip/src/endpoint/v1.rs: Stub::send_to, Proxy::send", "rsomeip/src/endpoint/v1/connection.rs: Connections::send_to"]}
{"id": "C74", "title": "Outgoing messages keep their order", "statement": "What the socket of a connection is given are the messages accepted for this connection, in order, each once, nothing else; a connection that ends because it is not used any more has sent all of them; while it runs, everything accepted gets to the socket.", "quantifier": "every history and every schedule", "why_tests_cant": "All schedules of senders and tasks.", "anchors": ["rsomeip/src/endpoint/v1/connection.rs: Connection::send, SenderTask"]}
{"id": "C75", "title": "A connection lasts as long as it is used", "statement": "As long as a proxy uses a connection, or a stub has sent through one it opened itself, or the listener that accepted it runs, the connection ends only if the socket reports its end or fails to send.", "quantifier": "every history and every schedule", "why_tests_cant": "All histories of clones and drops.", "anchors": ["rsomeip/src/endpoint/v1/connection.rs: Connection, ConnectionTask", "rsomeip/src/endpoint/v1.rs: Stub, Proxy", "rsomeip/src/endpoint/v1/listener.rs: ListenerTask"]}
{"id": "C76", "title": "A slow receiver does not block the endpoint", "statement": "A stub or proxy that is not read from does not keep others from being served. (Violated: a connection waiting for room in a full queue holds the lock of the interface's table entry; a request for the same interface, or for another one in the same bucket of the table, then stops the endpoint task, and all other requests wait behind it; messages for interfaces in the same bucket wait too.)", "quantifier": "every schedule", "why_tests_cant": "Needs a full queue, a waiting connection and a request at the same time; and absence of progress in every continuation.", "anchors": ["rsomeip/src/endpoint/v1/interface.rs: Interfaces::send, Interfaces::check", "rsomeip/src/endpoint/v1.rs: EndpointTask"]}
{"id": "C77", "title": "Dropping everything ends everything", "statement": "When the Endpoint and all its Stubs and Proxies are dropped, its tasks end and with them all listeners and connections; before that, without calls and network input, they only do finitely many steps (no busy loop).", "quantifier": "every history before, every schedule after", "why_tests_cant": "Leaked tasks and cycles of handles show only after a shutdown, and depend on what was in progress; termination is about all schedules.", "anchors": ["rsomeip/src/endpoint/v1.rs: EndpointTask, Stub, Proxy", "rsomeip/src/endpoint/v1/connection.rs: Connection::spawn", "rsomeip/src/endpoint/v1/listener.rs: Listener::spawn"]}
{"id": "C78", "title": "Messages for an open handle are not dropped", "statement": "A received message for an interface with an open Stub (Proxy) is put into its queue and no other; it is dropped only if the socket has closed the listener (the proxy's connection).", "quantifier": "every history and schedule of connections, handles and tasks", "why_tests_cant": "Senders are kept alive by several tasks, and looked up through weak references in a shared table; a window in which an open handle is unknown occurs only for some schedules.", "anchors": ["rsomeip/src/endpoint/v1/interface.rs: Interfaces", "rsomeip/src/endpoint/v1/connection.rs: ReceiverTask", "rsomeip/src/endpoint/v1/listener.rs: ListenerTask"]}
{"id": "C79", "title": "A packet whose processing has begun is processed completely", "statement": "Every message of a received well-formed packet is put into the queue of its interface, or dropped because nobody is there. (Violated: when sending fails, or the last handle of the connection is dropped, the select! loop abandons the remaining messages of the packet.)", "quantifier": "every packet, every schedule", "why_tests_cant": "The task has to be interrupted between two messages of one packet.", "anchors": ["rsomeip/src/endpoint/v1/connection.rs: Connection::spawn, ReceiverTask"]}
{"id": "C80", "title": "A failing UDP socket is reported to its connections", "statement": "When reading from the operating system's socket fails, UdpReceiver::recv and UdpListener::accept return what is queued and then report the end. (Violated: as long as the UdpSocket is kept, they wait forever.)", "quantifier": "every history before the failure and every schedule after it", "why_tests_cant": "Absence of a report cannot be observed in finite time; it depends on which senders are alive in which table.", "anchors": ["rsomeip/src/socket/udp.rs: UdpSocket::bind, ReceiverTask::spawn, UdpReceiver::recv, UdpListener::accept"]}
{"id": "C81", "title": "Dropping a UDP socket closes it", "statement": "After the UdpSocket is dropped its receiving task ends, the port is free again, and its connections and listeners are told. (Violated: the task runs on until reading fails, connections go on receiving, and accept keeps waiting.)", "quantifier": "every history before the drop and every schedule after it", "why_tests_cant": "A leaked task is invisible to tests that end with the process; all schedules after the drop.", "anchors": ["rsomeip/src/socket/udp.rs: UdpSocket, ReceiverTask::spawn"]}
{"id": "C82", "title": "On a UDP socket, messages come from datagrams of the reported sender, each at most once", "statement": "Every message that Stub::recv_from returns with address a, and every message that a Proxy for remote a returns, is contained in a datagram that arrived from a. Messages of one connection are queued for a handle in the order of arrival. If the datagrams from a contain a message n times, then all stubs and proxies of the endpoint together return it at most n times as coming from a.", "quantifier": "every history of an endpoint on a UDP socket: all datagrams, all calls, all schedules of the endpoint's, the listeners', the connections' and the socket's tasks", "why_tests_cant": "The path from datagram to handle crosses two tables, two kinds of bounded channels and four tasks; mixing up or doubling shows only under some interleavings of reconnects, accepts and drops.", "anchors": ["rsomeip/src/endpoint/v1.rs: Endpoint::spawn, Stub::recv_from, Proxy::recv", "rsomeip/src/endpoint/v1/connection.rs: ReceiverTask", "rsomeip/src/socket/udp.rs: ReceiverTask, UdpReceiver::recv"]}
{"id": "C83", "title": "What an endpoint returns, another endpoint sent", "statement": "Several programs, each with an endpoint on a UDP socket, on a network that may lose, delay, repeat and reorder datagrams: a message that a Stub or Proxy at n returns as coming from the program at a was sent before, to n, by a Stub or Proxy of the program at a. All header fields and the payload are the same; if message type and return code were not given as Unknown with the number of a known one, the message is equal.", "quantifier": "every number of programs, every history of calls, every schedule of all tasks, every behaviour of the network that does not make up datagrams", "why_tests_cant": "Two programs, a lossy network and all tasks on both sides have to be combined in every interleaving.", "anchors": ["rsomeip/src/endpoint/v1.rs: Stub::send_to, Stub::recv_from, Proxy::send, Proxy::recv", "rsomeip/src/endpoint/v1/connection.rs: SenderTask, ReceiverTask", "rsomeip/src/socket/udp.rs: UdpSender::send, ReceiverTask"]}
{"id": "C84", "title": "On a UDP socket, handles work until the socket is gone or their remote is connected to again", "statement": "On a UDP socket, a message for an open Stub is dropped, and recv_from reports the end, only if the Endpoint was dropped and the operating system's socket failed. A message for an open Proxy is dropped, and recv or send report the end, only if in addition to that: sending to its remote failed, or the socket made two connections to its remote.", "quantifier": "every history of an endpoint on a UDP socket, every schedule of all tasks", "why_tests_cant": "Which senders keep a channel open depends on four tables and on which tasks have ended; the claim is about what never happens.", "anchors": ["rsomeip/src/endpoint/v1.rs: Endpoint, Stub, Proxy", "rsomeip/src/endpoint/v1/connection.rs: Connection::spawn", "rsomeip/src/endpoint/v1/listener.rs: Listener::spawn", "rsomeip/src/socket/udp.rs: UdpSocket, ReceiverTask"]}
{"id": "C85", "title": "Several proxies for the same remote work side by side", "statement": "Making a proxy for a remote, for another interface, does not disturb other proxies for the same remote: they go on receiving messages and can send. (Violated on a UDP socket: the second proxy connects again, which takes the address away from the first connection. From then on the first proxy receives nothing, reports the end, and fails to send.)", "quantifier": "every history of an endpoint on a UDP socket, every continuation", "why_tests_cant": "The first proxy is cut off for every later schedule, not just delayed; and it depends on the state of the socket's task when the second one connects.", "anchors": ["rsomeip/src/endpoint/v1.rs: EndpointTask::connection_or_connect, EndpointTask::proxy", "rsomeip/src/socket/udp.rs: UdpSocket::connect, ReceiverTask"]}
{"id": "C86", "title": "The end is final", "statement": "Once Stub::recv_from or Proxy::recv has reported the end, every later call does so at once, and no message is put into the queue of that handle any more; once Proxy::send has failed, every later call fails.", "quantifier": "every history before, every continuation, every schedule", "why_tests_cant": "Weak references could come back to life in some continuation; tests look at one.", "anchors": ["rsomeip/src/endpoint/v1.rs: Stub::recv_from, Proxy::recv, Proxy::send", "rsomeip/src/endpoint/v1/interface.rs: Interfaces::send, InterfaceSender", "rsomeip/src/endpoint/v1/connection.rs: Connection"]}
{"id": "C87", "title": "On a TCP socket, sending and receiving preserve the messages", "statement": "On a TCP socket, what is written to a connection is the beginning of the messages accepted for it, in order and without gaps; when a connection ends because its last handle was dropped, all of them have been written; sending never panics. What a connection takes from the socket are the bytes that arrived, in order. What a Stub or Proxy returns was sent by the remote. (The last part is violated: a read that ends inside a message makes the task drop what it has or make up messages from the middle of others. Proved for remotes that are endpoints and reads that end between messages.)", "quantifier": "every history of an endpoint on a TCP socket: all bytes that arrive, all ways of cutting them into reads and writes, all calls, all schedules", "why_tests_cant": "How a stream is cut into reads and writes is up to two kernels and the network; tests on the loopback see one cut.", "anchors": ["rsomeip/src/socket/tcp.rs: TcpSender::send, TcpReceiver::recv", "rsomeip/src/endpoint/v1/connection.rs: SenderTask, ReceiverTask", "rsomeip/src/endpoint/v1.rs: Endpoint::spawn"]}
{"id": "C88", "title": "Without calls and without input an endpoint comes to rest", "statement": "When nobody calls the endpoint, its stubs and proxies, and nothing arrives from the network, all tasks of the endpoint and its socket together take only a bounded number of steps, whatever the schedule. (Violated on TCP: once the remote has closed its sending side, every read returns at once with nothing, and the connection's task reads again, forever.)", "quantifier": "every history before, every schedule after; UDP and TCP", "why_tests_cant": "A busy loop and slow progress look the same to a test; the bound has to hold for all schedules from all states.", "anchors": ["rsomeip/src/endpoint/v1.rs: EndpointTask", "rsomeip/src/endpoint/v1/connection.rs: ReceiverTask, SenderTask", "rsomeip/src/endpoint/v1/listener.rs: ListenerTask", "rsomeip/src/socket/udp.rs: ReceiverTask", "rsomeip/src/socket/tcp.rs: TcpReceiver::recv"]}
{"id": "C89", "title": "Nothing is left undone", "statement": "An endpoint on a UDP socket comes to rest by itself, and when it does and the user reads from all handles (no queue is full): all calls of serve, proxy and send_to have returned; all messages accepted by send and send_to have been given to the socket, unless their connection ended because sending failed or the socket closed it; every packet put into the channel of a running connection was read or reported as missed, and each of its messages was put into the queue of its interface or dropped; all connections were accepted.", "quantifier": "every history of an endpoint on a UDP socket, every schedule after it", "why_tests_cant": "A call that hangs or a message that stays in some task looks like slowness; the claim is about all states without further steps.", "anchors": ["rsomeip/src/endpoint/v1.rs: EndpointTask, Endpoint::serve, Endpoint::proxy, Stub::send_to, Proxy::send", "rsomeip/src/endpoint/v1/connection.rs: SenderTask, ReceiverTask", "rsomeip/src/endpoint/v1/listener.rs: ListenerTask", "rsomeip/src/socket/udp.rs: ReceiverTask"]}
{"id": "C90", "title": "After the Endpoint is dropped and the socket has failed, everything ends", "statement": "After the Endpoint was dropped and the operating system's UDP socket has failed, all tasks end, even if stubs and proxies are kept and whatever state they were in, provided the user reads from them. Then recv_from and recv report the end as soon as the messages in their queues are read, send fails, and from then on, whatever is called, no connection is opened, no message is accepted, and nothing is sent.", "quantifier": "every history of an endpoint on a UDP socket, every schedule, every continuation", "why_tests_cant": "Tasks, channels and tables refer to each other; one reference too many keeps all of them, which no assertion shows.", "anchors": ["rsomeip/src/endpoint/v1.rs: Endpoint, EndpointTask, Stub, Proxy", "rsomeip/src/endpoint/v1/connection.rs: Connection::spawn", "rsomeip/src/endpoint/v1/listener.rs: Listener::spawn", "rsomeip/src/socket/udp.rs: UdpSocket, ReceiverTask"]}
{"id": "C91", "title": "Datagrams are not given to connections that have ended", "statement": "When a UDP socket under an endpoint puts a datagram from a into a channel, a running connection to a reads from this channel, or a running listener has not accepted the connection yet. A connection that ended because its last handle was dropped does not swallow later datagrams from its remote.", "quantifier": "every history of an endpoint on a UDP socket, every schedule of all tasks", "why_tests_cant": "Whether the sender left in the table of the socket still has a receiver depends on when the connection's task is dropped.", "anchors": ["rsomeip/src/socket/udp.rs: ReceiverTask::run, UdpReceiver", "rsomeip/src/endpoint/v1/connection.rs: Connection::spawn, ReceiverTask", "rsomeip/src/endpoint/v1/listener.rs: ListenerTask"]}
{"id": "C92", "title": "On a TCP socket, handles work until their own connection or listener fails", "statement": "On a TCP socket, a received message for an interface with an open Stub is dropped, and recv_from reports the end, only if accepting a connection failed on the listener of that stub. A message for an interface with an open Proxy is dropped, recv reports the end, and send fails, only if the operating system reported an error on the connection of that very proxy. Other connections do not matter, even those to the same remote.", "quantifier": "every history of an endpoint on a TCP socket: all answers of the operating system, all bytes, calls and schedules", "why_tests_cant": "Handles share tasks, tables and channels; a test would have to try every order in which the others end.", "anchors": ["rsomeip/src/endpoint/v1.rs: Endpoint, Stub, Proxy", "rsomeip/src/endpoint/v1/connection.rs: Connection::spawn", "rsomeip/src/endpoint/v1/listener.rs: Listener::spawn", "rsomeip/src/socket/tcp.rs: TcpListener::accept, TcpReceiver::recv, TcpSender::send"]}
{"id": "C93", "title": "A server survives a failed accept", "statement": "When accepting one TCP connection fails (too many open files, say, or a client that gave up), the server goes on: it accepts other connections, its stubs go on receiving from clients that are connected, and further interfaces can be served. (Violated: any error of accept ends the listener's task. While a stub is open, nothing is accepted, every serve fails, and nothing that arrives is given to it, not even from clients that were connected before. Only dropping all stubs helps.)", "quantifier": "every history of an endpoint on a TCP socket before the failure, every continuation after it", "why_tests_cant": "Needs a failing accept, which the tests cannot cause, and all continuations, to see that it does not recover.", "anchors": ["rsomeip/src/socket/tcp.rs: TcpListener::accept", "rsomeip/src/endpoint/v1/listener.rs: AcceptTask::run, ListenerTask::run", "rsomeip/src/endpoint/v1.rs: EndpointTask::listener_or_listen, EndpointTask::serve"]}
{"id": "C94", "title": "What arrives is returned, once and in order", "statement": "On a UDP socket: if an interface was served (or a proxy made) before anything arrived from a, the handle is kept and not cut off, one connection got all datagrams from a, and the endpoint has nothing left to do, then when recv_from (recv) waits, what it has returned from a are exactly the messages for its interface in the datagrams from a: none is missing, none comes twice, and they come in order.", "quantifier": "every history of an endpoint on a UDP socket, all datagrams, every schedule", "why_tests_cant": "A lost or doubled message needs one particular interleaving of socket task, connection task, table updates and calls.", "anchors": ["rsomeip/src/endpoint/v1.rs: Stub::recv_from, Proxy::recv", "rsomeip/src/endpoint/v1/connection.rs: ReceiverTask, route_message", "rsomeip/src/endpoint/v1/interface.rs: Interfaces", "rsomeip/src/socket/udp.rs: ReceiverTask::run, UdpReceiver::recv"]}
{"id": "C95", "title": "What one program sends the other returns, once and in order", "statement": "Two programs with endpoints on UDP sockets at a and b, on a network that delivers the datagrams from a to b, each once and in order: if a has one connection to b, it is running, and both programs have nothing left to do, then what a stub (or proxy) at b, made before the first datagram and not cut off, has returned from a are exactly the messages for its interface that send and send_to have accepted at a, each once, unchanged and in order.", "quantifier": "every history of any number of programs with endpoints on a network, all messages, every schedule", "why_tests_cant": "Puts the whole path together, from send in one program to recv in the other, under all interleavings of both.", "anchors": ["rsomeip/src/endpoint/v1.rs: Stub, Proxy", "rsomeip/src/endpoint/v1/connection.rs: SenderTask, ReceiverTask", "rsomeip/src/socket/udp.rs: UdpSender::send, ReceiverTask::run", "rsomeip/src/someip.rs: Message"]}
{"id": "C96", "title": "What runs is bounded by what is used", "statement": "When an endpoint has nothing left to do, the number of connections it keeps running is bounded by the proxies and stubs the user holds; remotes that are not talking any more cost nothing. (Violated on UDP: a server keeps a connection, with its task and queues, for every address it has ever heard from, until the last stub is dropped, even if all that came was an empty datagram. What holds: every running connection is used by a proxy, or by a stub or its listener, which have at most one each for every remote; on TCP as well, including connections that the remote has closed, C130.)", "quantifier": "every history of an endpoint on a UDP socket after which it has nothing left to do, any number of remotes", "why_tests_cant": "The bound must hold after every history; the violation has no largest size.", "anchors": ["rsomeip/src/endpoint/v1/listener.rs: ListenerTask, AcceptTask", "rsomeip/src/endpoint/v1/connection.rs: Connections, Connection::spawn", "rsomeip/src/endpoint/v1.rs: Stub, Proxy, EndpointTask", "rsomeip/src/socket/udp.rs: ReceiverTask::run"]}
{"id": "C97", "title": "Weak handles give an endpoint as long as there is one, and do not keep it", "statement": "WeakEndpoint::upgrade answers at once. It returns an Endpoint exactly if the user still has one or a call of send_to is just making a connection; that Endpoint works, its endpoint has not ended. Once upgrade has returned None, or the endpoint has ended, it returns None forever. Weak handles keep nothing alive: when nothing is left to do, an endpoint whose weak handles give None has ended.", "quantifier": "every history of an endpoint, every schedule (the last part: on a UDP socket)", "why_tests_cant": "Dropping, upgrading and a stub's hidden handle can be interleaved in every way, and the last part is about all later states.", "anchors": ["rsomeip/src/endpoint/v1.rs: WeakEndpoint::upgrade, Endpoint::downgrade, Stub::connect, EndpointTask::command"]}
{"id": "C98", "title": "Nothing is left undone on TCP connections", "statement": "As long as no remote has closed its side of a connection, an endpoint on a TCP socket comes to rest by itself. When it has nothing left to do and the user reads from all handles (no queue is full): all calls of serve, proxy and send_to have returned; all messages accepted by send and send_to have been written completely, unless the operating system reported an error on their connection; a running connection has read everything that arrived, and every message of what was read was put into the queue of its interface or dropped, once and in order.", "quantifier": "every history of an endpoint on a TCP socket: all answers of the operating system, all bytes, calls and schedules", "why_tests_cant": "A call that hangs or bytes that stay in some task look like slowness; the claim is about all states without further steps.", "anchors": ["rsomeip/src/endpoint/v1.rs: EndpointTask, Endpoint::serve, Endpoint::proxy, Stub::send_to, Proxy::send", "rsomeip/src/endpoint/v1/connection.rs: SenderTask, ReceiverTask", "rsomeip/src/endpoint/v1/listener.rs: ListenerTask", "rsomeip/src/socket/tcp.rs: TcpSender::send, TcpReceiver::recv"]}
{"id": "C99", "title": "What one program sends over TCP the other returns, once and in order", "statement": "Two programs with endpoints are connected by TCP, which has carried what the first has written on its connection; both have nothing left to do and there were no errors. Then what a stub (or proxy) of the second, made before the first byte arrived and kept, has returned from that remote are exactly the messages for its interface that send and send_to have accepted on the connection, each once, unchanged and in order. (Violated: a read that ends inside a message, which TCP may do at any byte, makes the receiver return a message that was never sent, or none. Proved for reads that end between messages.)", "quantifier": "every pair of histories of endpoints on TCP sockets, all messages, all ways of cutting the stream into reads and writes, every schedule", "why_tests_cant": "Puts the whole path together, from send in one program to recv in the other; how the stream is cut is not in a test's hands.", "anchors": ["rsomeip/src/endpoint/v1.rs: Stub, Proxy", "rsomeip/src/endpoint/v1/connection.rs: SenderTask, ReceiverTask", "rsomeip/src/socket/tcp.rs: TcpSender::send, TcpReceiver::recv", "rsomeip/src/someip.rs: Message"]}
{"id": "C100", "title": "A call that is not polled stops nobody else", "statement": "A call of Stub::send_to that its user has started and does not poll (for example because something else is awaited first) does not keep the endpoint, its listener or the calls of others from going on. (Violated: a call that waits for room in a connection's queue holds the lock of the table entry of the address. While it is not polled, a request for a proxy to that address stops the endpoint task and with it all requests, a connection from that address stops the listener, and other calls of send_to to that address wait; the same for addresses in the same bucket of the table. Proved for the locks of all other addresses, and for calls that wait for anything else; what such a call does to others that wait for the same queue is C105.)", "quantifier": "every history of an endpoint, every schedule and every continuation in which the call is not polled, every assignment of addresses to buckets", "why_tests_cant": "Needs a full queue, a call that is neither polled nor dropped and another request at the same time; and absence of progress in every continuation.", "anchors": ["rsomeip/src/endpoint/v1/connection.rs: Connections::send_to, Connections::check, Connections::get, Connections::share_and_store", "rsomeip/src/endpoint/v1.rs: Stub::send_to, EndpointTask", "rsomeip/src/endpoint/v1/listener.rs: ListenerTask"]}
{"id": "C101", "title": "What has ended is forgotten", "statement": "What an endpoint keeps grows with what is in use, not with what there once was: when a connection has ended and nobody uses it, or a stub or proxy was dropped, the endpoint keeps nothing about it. (Violated: a listener keeps the handle of every connection it has accepted, ended or not, and the shared tables keep an entry for every address and interface; entries go only if something new is done with the same address or interface, those of the listener also when it ends. A server on a TCP socket whose clients connect from ever new ports grows without bound. Proved: one entry for each different address or interface, not for each connection, call or message; a listener, stub or connection that has ended keeps nothing.)", "quantifier": "every history of an endpoint, every schedule, every number of clients", "why_tests_cant": "A leak shows only in histories longer than any test; the bound is about all histories.", "anchors": ["rsomeip/src/endpoint/v1/connection.rs: Connections, Connections::share_and_store, Connections::send_to", "rsomeip/src/endpoint/v1/interface.rs: Interfaces", "rsomeip/src/endpoint/v1/listener.rs: ListenerTask, AcceptTask", "rsomeip/src/endpoint/v1.rs: Stub, EndpointTask"]}
{"id": "C102", "title": "Nobody waits behind others for ever", "statement": "How long something takes depends on the tasks concerned, not on how much others do in the meantime. A request to serve an interface or make a proxy returns, and a stub that asked for a connection has its answer, after at most 54 steps of the endpoint's task; a call of send_to returns after at most five steps of its own (not counting the wait for the endpoint); messages accepted by a connection have been handed to the socket after at most three steps of its sending task, unless the connection has ended; a message that was received is put into the queue of its interface or dropped after at most two steps of the receiving task for it and for each message received before; a message in a stub's queue is among the next sixteen the stub returns; a datagram is in the queue of its connection or thrown away after at most five steps of the socket's task.", "quantifier": "every history of an endpoint or UDP socket and every continuation, whatever else happens in it", "why_tests_cant": "Starvation needs others that keep coming at the right moments; a test has one schedule and cannot try all of them.", "anchors": ["rsomeip/src/endpoint/v1.rs: EndpointTask, Endpoint::serve, Endpoint::proxy, Stub::send_to, Stub::recv_from", "rsomeip/src/endpoint/v1/connection.rs: SenderTask, ReceiverTask, Connections::send_to", "rsomeip/src/socket/udp.rs: ReceiverTask"]}
{"id": "C103", "title": "What waits is bounded", "statement": "An endpoint accepts no more than it can get rid of: at most nine requests to serve an interface or make a proxy wait for an answer, at most two messages accepted for a connection are not yet handed to the socket, at most sixteen messages wait for a stub or a proxy to return them, and at most 32 packets wait for a connection of a UDP socket; everybody else waits before the call, or the oldest packet is dropped.", "quantifier": "every history of an endpoint or UDP socket, every schedule, every amount of input", "why_tests_cant": "That nothing piles up is a claim about all histories, of every length.", "anchors": ["rsomeip/src/endpoint/v1.rs: Endpoint, Stub, Proxy", "rsomeip/src/endpoint/v1/connection.rs: Connection, SenderTask", "rsomeip/src/endpoint/v1/interface.rs: Interface", "rsomeip/src/socket/udp.rs: UdpSocket::connect, ReceiverTask::process_new_connection"]}
{"id": "C104", "title": "In the long run everything gets done", "statement": "If no task and no polled call is passed over for ever, and users read their stubs and proxies whenever they are free to, then every call of serve, proxy and send_to returns, every message received is handed to its handle or dropped, and every message accepted is handed to the socket, unless its connection ends. (Violated: a deadlock. A stub's recv_from and send_to both take the stub mutably, so it cannot be read from while send_to waits; if send_to waits for the endpoint to make a connection, the endpoint waits for the lock of the interface's table entry, and the connection that holds the lock waits for room in the stub's queue, then none of them ever goes on. Messages accepted are handed to the socket without any assumption on users; the rest holds if no queue of a stub or proxy stays full for ever.)", "quantifier": "every infinite run of an endpoint that is fair to its tasks and calls, every behaviour of users and peers", "why_tests_cant": "Liveness is about what happens at some time in every infinite run; no finite test decides it, and the deadlock needs seventeen waiting messages and three parties at the right points.", "anchors": ["rsomeip/src/endpoint/v1.rs: EndpointTask, Endpoint::serve, Endpoint::proxy, Stub::send_to, Stub::recv_from", "rsomeip/src/endpoint/v1/connection.rs: SenderTask, ReceiverTask, Connections::send_to", "rsomeip/src/endpoint/v1/interface.rs: Interfaces::send, Interfaces::check", "rsomeip/src/endpoint/v1/listener.rs: ListenerTask"]}
{"id": "C105", "title": "Calls that wait for the same connection take turns", "statement": "Messages leave a connection's queue in the order in which the calls of send returned Ok, each once; calls on one connection return Ok in the order in which they were made; a call that was dropped sends nothing; and every call that waits returns in the end. (The last part is violated: room that becomes free belongs to the call that has waited longest, even if it is not polled; a call that its user has started and does not poll keeps all others on the same connection from sending, though the queue is empty. It holds if calls that can return are polled or dropped and the connection's task goes on. In the queue of the endpoint's task, with room for eight, calls can overtake each other.)", "quantifier": "every history of a channel of every capacity, every number of callers, every schedule; for the last part every infinite run", "why_tests_cant": "Needs several callers that wait, get room and are polled in all possible orders; and absence of progress in every continuation.", "anchors": ["rsomeip/src/endpoint/v1/connection.rs: Connection::send, SenderTask", "rsomeip/src/endpoint/v1.rs: Endpoint, Proxy::send, Stub::send_to", "rsomeip/src/endpoint/v1/interface.rs: Interface::send"]}
{"id": "C106", "title": "What was decoded can be encoded again", "statement": "A value that was decoded can be encoded, and decoding that encoding gives the same value, so that a program can receive data and pass it on. For numbers, byte strings, and tuples and Vecs of these, the encoding is exactly the bytes that were decoded. (Violated: an array in a length-prefixed member is decoded from missing data and filled with default values, and is then too long for its length field; a string received as UTF-16 that fits its length field may not fit it as UTF-8. Holds if length-prefixed members contain no arrays and strings, and arrays no length-prefixed members. Booleans, unused announced bytes and strings in other encodings give other bytes than those received.)", "quantifier": "every type built from the supported ones, every input that is decoded", "why_tests_cant": "Tests encode values they made up and decode the result; this is about all inputs a peer can send, including those no encoder produces.", "anchors": ["rsomeip-bytes/src/ser.rs: Serialize", "rsomeip-bytes/src/de.rs: Deserialize", "rsomeip-bytes/src/macros.rs: impls for primitives, tuples, arrays"]}
{"id": "C107", "title": "Truncated data is not taken for complete", "statement": "If the data ends within a value, decoding fails instead of giving another value, and what follows a value has no influence on it. (Violated for arrays, whose missing elements are default values, and for length-prefixed Vecs and byte strings, which are taken as shorter. Proved for all types without arrays, Vecs and byte strings, with strings and length-prefixed members: no proper beginning of an encoding is decoded to a value.)", "quantifier": "every type, every value, every place at which the data can end, everything that can follow", "why_tests_cant": "A test truncates a few examples at a few places.", "anchors": ["rsomeip-bytes/src/de.rs: Deserialize, LengthField", "rsomeip-bytes/src/macros.rs: impls for primitives, tuples, arrays"]}
{"id": "C108", "title": "A message sent once is returned once at most", "statement": "If the network repeats no datagram from a to b (it may lose, delay and reorder them), then all stubs and proxies at b together return a message as coming from a at most as often as send and send_to have accepted it at a for b; the library itself duplicates nothing on the way through connection, socket, listener, router and interface queue. (There is no protection against a network that does repeat: then a message accepted once is returned twice.)", "quantifier": "every number of programs with endpoints on UDP sockets, every behaviour of users, tasks and network that repeats nothing from a to b, every message", "why_tests_cant": "A duplicate needs some interleaving of two programs' tasks, listeners coming and going and reconnecting peers; tests see a few.", "anchors": ["rsomeip/src/endpoint/v1.rs: EndpointTask, Stub, Proxy", "rsomeip/src/endpoint/v1/connection.rs: SenderTask, ReceiverTask", "rsomeip/src/socket/udp.rs: SenderTask, ReceiverTask, UdpSender::send", "rsomeip/src/endpoint/v1/interface.rs: Interfaces::send"]}
{"id": "C109", "title": "What a peer sends cannot blow up in memory", "statement": "A decoded value takes at most a fixed amount of memory for its type plus a constant, which depends on nothing but the type, for each byte that was consumed; a Vec has at most as many elements as bytes were consumed. So no length field or count in the data can make a receiver use more memory than its type and the size of the data explain. The constant has to depend on the type: a single byte is enough for a Vec of one array of any size, as missing elements of arrays are default values. (Not about a Vec that is decoded forever, see C14.)", "quantifier": "every type built from the supported ones, every input, both byte orders of the host, every size of the handles of Vec, String and Bytes", "why_tests_cant": "A test measures a few inputs; an input that makes a receiver allocate too much is the one nobody thought of.", "anchors": ["rsomeip-bytes/src/de.rs: Deserialize for Vec, arrays, String, Bytes, tuples; deserialize_len"]}
{"id": "C110", "title": "The sample programs hold their conversation", "statement": "The two programs shipped as examples talk to each other: the asking program sends requests with sessions 1, 2, ..., 65535, 1, ..., the answering one returns each as a response with the same ids, session and body, and each response the asking program receives is the one to the request it has just sent; both run for ever. (Holds over a network that neither loses, repeats nor brings in datagrams. As long as nobody else sends to a program it does not panic, and handles only what the other one sent, whatever is lost, repeated or reordered. Violated otherwise: a lost datagram stalls both for ever, a repeated one puts responses out of step with requests, any other datagram from anybody makes the receiver panic, and of a longer request from another client only 48 bytes of body are returned.)", "quantifier": "every history of both programs and of a network that may lose, repeat, reorder and bring in datagrams; every datagram", "why_tests_cant": "Running the examples shows one history on a quiet machine; sessions wrap after 65535 seconds; strangers and losses do not occur.", "anchors": ["rsomeip-proto/examples/request-sample.rs: main, send_requests", "rsomeip-proto/examples/response-sample.rs: main, send_responses", "rsomeip-proto/src/endpoint.rs: Endpoint::poll, Endpoint::process", "rsomeip-proto/src/primitives.rs: SessionId::increment"]}
{"id": "C111", "title": "Segmented messages are not mixed up", "statement": "If several segmented messages with different identities (service, method, client, session) are under way at the same time, a receiver that keeps one open message for each identity, begins it with a segment at offset zero and joins every other segment that arrives hands out only messages that were sent, whatever is lost, repeated or reordered; a message whose segments arrive completely and in order, between whatever segments of others, is handed out exactly once. (Violated for receivers that join whatever arrives, as segments carry nothing that tells messages apart: the beginning of one and the end of another are joined without complaint. Violated also for messages with the same identity, if a segment of each is lost.)", "quantifier": "every set of messages, limits and segments, every sequence in which packets of them arrive", "why_tests_cant": "Tests join the segments of one message in order; which segments of several messages arrive, and in which order, is up to the network.", "anchors": ["rsomeip-proto/src/tp.rs: TpHeader::split, TpHeader::join, Message::wrap_segment, Message::unwrap_segment, Serialize, Deserialize"]}
{"id": "C112", "title": "A datagram too long for the receiver is not taken for a shorter one", "statement": "A message that a stub or proxy on a UDP socket returns was contained, as it is, in a datagram that was sent to it. (Violated for datagrams of more than 1400 bytes, which are cut without notice: the messages before the 1400th byte are returned, the message that reaches over it is returned with the part of its payload that lies before, and the rest is lost; if less than a header of it lies before, all messages of the datagram are lost. Holds for datagrams of up to 1400 bytes, and endpoints send no longer ones.)", "quantifier": "every history of an endpoint on a UDP socket; every datagram made of messages, wherever the 1400th byte lies", "why_tests_cant": "Tests send small datagrams; where the cut falls and what the decoder makes of it depends on all sizes.", "anchors": ["rsomeip/src/socket/udp.rs: ReceiverTask (buffer of 1400 bytes), UdpSender::send", "rsomeip/src/endpoint/v1/connection.rs: ReceiverTask", "rsomeip/src/someip.rs: Deserialize for Message"]}
{"id": "C113", "title": "Segments can be told from whole messages", "statement": "A receiver can tell the segments of a segmented message from whole messages by the TP flag of the message type, and the flag makes no difference to which messages its endpoint accepts. (Violated: no function that wraps, splits or joins segments sets or clears the flag. A segment of a message that the caller has not marked is accepted by every endpoint that accepts the message, as a whole message with another body, which begins with the segment's own four bytes of header. Holds if the caller sets the flag before splitting: all segments carry it, whole messages do not, the checks are the same with and without, and the reassembled message is the original one after clearing the flag.)", "quantifier": "every message, every limit, every segment of it, every endpoint, whatever follows in the buffer", "why_tests_cant": "Tests wrap and unwrap single segments; whether a segment is mistaken for a message depends on the path from the splitter to the endpoint of the receiver.", "anchors": ["rsomeip-proto/src/tp.rs: Message::wrap_segment, Message::into_segment, Message::unwrap_segment, TpHeader::split", "rsomeip-proto/src/primitives.rs: MessageTypeField::with_flags, is_tp, as_type", "rsomeip-proto/src/endpoint.rs: Endpoint::poll"]}
{"id": "C114", "title": "One peer's traffic does not cost another's", "statement": "What one remote sends does not make messages of another one be lost: if a proxy would have returned all that its remote sent it, it does so whatever others send to the same socket. (Holds at the socket: a connection misses packets only if at least eight more have come from its own remote since it had read all there was, whatever others send. Violated above it, as messages are queued by interface and not by remote: one datagram from another remote, with seventeen messages for the interface of the proxy, which the proxy will skip, fills its queue and stops the connection to its own remote, and of ten messages that arrive from there meanwhile one is lost, though they would all be returned without that datagram.)", "quantifier": "every history of a UDP socket, its connections and the datagrams of any number of remotes", "why_tests_cant": "Tests have one client; that buffers are shared between peers shows only under the traffic of several, at the wrong moment.", "anchors": ["rsomeip/src/socket/udp.rs: ReceiverTask, UdpReceiver::recv, Connector::connect (broadcast channels)", "rsomeip/src/endpoint/v1/interface.rs: Interfaces::send", "rsomeip/src/endpoint/v1/connection.rs: ReceiverTask", "rsomeip/src/endpoint/v1.rs: Proxy::recv"]}
{"id": "C115", "title": "Answers go back over the connection on which the question came", "statement": "Once a server has accepted a connection from an address and registered it, what any of its stubs sends to that address goes over this connection as long as the connection and the listener run, and no call fails: provided no other connection was accepted from there and nobody had sent there before. No other connection is opened to the address unless a proxy asked for one, and a call goes through as soon as there is room in the connection's queue. Likewise a stub that has sent to an address over a connection it had opened goes on using that one, if it is the only stub that sends there and nobody connects from there.", "quantifier": "every history of an endpoint, over UDP and TCP, with any number of stubs, proxies, listeners and connections; every point at which a stub sends", "why_tests_cant": "Which connection is used depends on the order in which accepting, registering, sending and dropping interleave in several tasks.", "anchors": ["rsomeip/src/endpoint/v1.rs: Stub::send_to", "rsomeip/src/endpoint/v1/listener.rs: AcceptTask", "rsomeip/src/endpoint/v1/connection.rs: Connections::share_and_store, check, send_to", "rsomeip/src/endpoint/v1.rs: Endpoint (connect command)"]}
{"id": "C116", "title": "An accepted UDP connection already has the datagram it was made by", "statement": "When the listener of a UDP socket returns a connection, the datagram that made it is already there: the first recv returns it without waiting, and it came from the address reported. (Violated: accept can return on another thread while the receiving task is between queueing the connection and filling it; recv then has to wait, though only for the task's next step. Once the task waits for the next datagram it holds, unless more than 32 datagrams have come for the connection: then recv reports exactly how many are missing. If the first recv returns a packet, it is this one in any case.)", "quantifier": "every history of a UDP socket with any number of remotes, connections and listeners; every point at which accept and recv are called", "why_tests_cant": "Documented in the Listener trait; whether it holds depends on the thread schedule and on how many datagrams arrive before the first recv.", "anchors": ["rsomeip/src/socket.rs: Listener (documentation)", "rsomeip/src/socket/udp.rs: ReceiverTask::process_new_connection, UdpListener::accept, UdpReceiver::recv"]}
{"id": "C117", "title": "Calls are refused once the endpoint is gone, and for invalid messages", "statement": "Stub::send_to, Stub::recv_from, Proxy::send and Proxy::recv return an error if the endpoint has been dropped, and the sending ones do so if the message is invalid, as the traits document. (Violated: after the endpoint has ended, its stubs and proxies accept new clients, receive, and send as before, and Ok is returned for every message: where one message is accepted every other is, and of one that is too long for its length field four bytes are then sent. What holds: once the endpoint is gone, send_to to an address to which there has never been a connection fails.)", "quantifier": "every history of an endpoint, over UDP and TCP, every stub, proxy, address and message", "why_tests_cant": "The error cases are in the documentation only; which handle keeps which task alive depends on the history of all of them.", "anchors": ["rsomeip/src/endpoint.rs: traits Stub, Proxy (documentation)", "rsomeip/src/endpoint/v1.rs: Endpoint, Stub::send_to, Stub::recv_from, Proxy::send, Proxy::recv", "rsomeip/src/endpoint/v1/connection.rs: SenderTask"]}
{"id": "C118", "title": "UDP connections are accepted first come, first served", "statement": "The connections that UdpListener::accept returns are those made for this listener, in the order in which the first datagrams of their peers were dealt with, none left out. A connection is made for the newest listener only. accept returns the one that has been waiting longest at once; if none is waiting, it waits if its listener is the newest one and the socket is not both dropped and failed, and otherwise returns None.", "quantifier": "all histories of a UDP socket: any number of listeners, peers, datagrams and interleavings with the receiving task", "why_tests_cant": "A test checks one order of datagrams and calls; which listener gets which connection depends on how listen, accept and the receiving task interleave.", "anchors": ["rsomeip/src/socket/udp.rs:UdpListener::accept", "rsomeip/src/socket/udp.rs:UdpSocket::listen", "rsomeip/src/socket/udp.rs:ReceiverTask::process_new_connection"]}
{"id": "C119", "title": "What recv on a UDP connection answers", "statement": "On an open UDP connection, recv reports Lagged(n) exactly when n more packets are unread than the connection keeps (8 if it was made by connect, 32 if it was accepted), and otherwise returns the oldest unread packet. After Lagged(n) the next recv returns, as documented, the oldest packet still kept, so that exactly n packets were skipped.", "quantifier": "every history of the socket, every open connection", "why_tests_cant": "The count and the position depend on all interleavings of arrivals, drops and reads since the connection was made.", "anchors": ["rsomeip/src/socket/udp.rs: UdpReceiver::recv, process_packet, process_new_connection, connect", "rsomeip/src/socket.rs: RecvError::Lagged"]}
{"id": "C120", "title": "serve and proxy fail only for a reason", "statement": "serve and proxy report that an interface exists already only if a stub or proxy for it was handed out before. Apart from that, serve fails only if the connector cannot listen or has closed a listener before; proxy fails only if the connector cannot connect, or a connection to that very remote has ended. So the first serve of an interface succeeds as long as the connector does. While a stub is kept whose recv_from has reported that it is closed, no serve succeeds for any interface.", "quantifier": "every history of an endpoint over datagrams or streams: all interleavings of its tasks, calls and drops, every answer of the connector", "why_tests_cant": "A test provokes an error; that no error comes without its cause is a statement about all histories.", "anchors": ["rsomeip/src/endpoint/v1.rs: Endpoint::serve, Endpoint::proxy, EndpointTask::stub, EndpointTask::proxy, listener_or_listen", "rsomeip/src/endpoint/v1/listener.rs: Listener::take", "rsomeip/src/endpoint/v1/connection.rs: Connection::take", "rsomeip/src/endpoint/v1/interface.rs: Interfaces"]}
{"id": "C121", "title": "Programs connected by TCP receive what the others have sent", "statement": "Several programs have endpoints on TCP sockets bound to known addresses, and connect to each other and to strangers. Connections between them come in pairs of ends, each known to its program as a connection to the other program's address; what arrives at one end is at any time the beginning of what was written at the other end, and nothing else ever arrives as coming from one of the programs, whatever strangers do. A message that a stub or proxy returns as coming from a program was sent before by a stub or proxy of that program to this one, in the order of sending on each connection, and once everything has arrived and nobody has anything left to do, all of them have been returned. (The part about messages is violated: TCP does not keep the ends of messages, and a read that ends inside a message yields a message that was never sent. It holds if every read ends between messages.)", "quantifier": "any number of programs and strangers, every history of all of them and of the network between them", "why_tests_cant": "A test has two programs in one process; which bytes arrive when, in which pieces, and which connection is accepted by whom is up to the network.", "anchors": ["rsomeip/src/socket/tcp.rs: TcpSocket::connect, TcpSocket::listen, TcpListener::accept, TcpSender::send, TcpReceiver::recv", "rsomeip/src/endpoint/v1.rs: Endpoint, Stub, Proxy", "rsomeip/src/endpoint/v1/connection.rs: ReceiverTask"]}
{"id": "C122", "title": "Decoding depends on the bytes, not on how the buffer keeps them", "statement": "deserialize, deserialize_len, from_bytes, poll, into_segment and wrap_segment take any implementation of bytes::Buf: one slice, a chain of pieces, a view limited by take. For every one that keeps the contract of the trait the outcome (value or error, with its numbers) is that of reading from the same bytes in one slice, and the same bytes are left; so two buffers with the same bytes are decoded alike, wherever the pieces end. What serialize wrote is read back from every such buffer.", "quantifier": "every type, message and endpoint; every implementation of Buf that keeps the contract; every division of the bytes into pieces, also empty ones", "why_tests_cant": "Tests use contiguous buffers; the cuts may be within a number, a length field or a string, and there are infinitely many implementations.", "anchors": ["rsomeip-bytes/src/de.rs: Deserialize and all implementations", "rsomeip-proto/src/message.rs: Deserialize for GenericMessage, Header, from_bytes", "rsomeip-proto/src/tp.rs: Deserialize for TpHeader, into_segment, wrap_segment", "rsomeip-proto/src/endpoint.rs: Endpoint::poll", "rsomeip/src/someip.rs: Deserialize for Message"]}
{"id": "C123", "title": "Encoding depends on the room, not on how the buffer keeps it", "statement": "serialize, serialize_len and process take any implementation of bytes::BufMut: a slice, a chain of free pieces, memory that grows. For every one that keeps the contract of the trait they end, with the answer (or the panic) and the bytes appended of a buffer in one piece that has the same room. In particular every value that has an encoding is written by it wherever there is room, and the bytes written to a buffer of any kind are read back as the value from a buffer of any kind.", "quantifier": "every type, message and endpoint; every implementation of BufMut that keeps the contract; every division of the room into pieces, also empty ones", "why_tests_cant": "Tests use one growing buffer; the pieces may end within a number, and there are infinitely many implementations.", "anchors": ["rsomeip-bytes/src/ser.rs: Serialize and all implementations", "rsomeip-proto/src/message.rs: Serialize for GenericMessage, Header", "rsomeip-proto/src/tp.rs: Serialize for TpHeader", "rsomeip-proto/src/endpoint.rs: Endpoint::process", "rsomeip/src/someip.rs: Serialize for Message"]}
{"id": "C124", "title": "A call of send_to that does not return Ok sends nothing", "statement": "A call of Stub::send_to that is cancelled (its future dropped, for example by a timeout or a select) or that returns an error has sent nothing, and does not send anything later. A call that returns Ok has sent its message once. So a cancelled or failed call can be repeated without sending twice: what a stub sends are messages it was called with, in the order of the calls, at most once for each. A cancelled call keeps nobody waiting: who needs the table entry of an address that no other call keeps locked goes on, and the stub can be called again at once. (Cancelling may leave a connection behind that the endpoint makes for the call.)", "quantifier": "every history of an endpoint over datagrams or streams, every point at which a call can be cancelled", "why_tests_cant": "A call has up to six points at which it can be cancelled, and what others do in the meantime and afterwards is arbitrary.", "anchors": ["rsomeip/src/endpoint/v1.rs: Stub::send_to, Stub::connect, Endpoint::connect", "rsomeip/src/endpoint/v1/connection.rs: Connections::send_to, Connections::check, Connections::share_and_store, Connection::send"]}
{"id": "C125", "title": "An endpoint on a TCP socket can serve and connect", "statement": "An endpoint on a TCP socket can serve interfaces and make proxies to other remotes at the same time, in any order: listening does not depend on what connections there are, and connecting to a remote to which there is no connection is refused only by the network or the remote. There are never two connections to the same remote at the same time; the endpoint has as many sockets of the operating system as it has running listeners and connections, and a call that fails leaves none behind. (The first part is violated on Linux: TcpSocket::connect binds a new socket to the endpoint's own address with SO_REUSEADDR, which Linux refuses while a socket is listening there. So from the first serve on, for as long as a stub is kept, no proxy can be made to a remote that has not been connected before and does not connect by itself. For the same reason an interface cannot be served after the last stub was dropped, until the task of the old listener has ended. Proved for endpoints whose listeners have ended or that have none.)", "quantifier": "every history of an endpoint on a TCP socket, every reaction of the network, with the rules of Linux for bind, listen and connect", "why_tests_cant": "The tests of the project use endpoints on UDP sockets only; what is refused depends on which tasks have ended by then.", "anchors": ["rsomeip/src/socket/tcp.rs: TcpSocket::connect, TcpSocket::listen, TcpListener::accept", "rsomeip/src/endpoint/v1.rs: EndpointTask::listener_or_listen, EndpointTask::connection_or_connect", "rsomeip/src/endpoint/v1/listener.rs: ListenerTask", "rsomeip/src/endpoint/v1/connection.rs: ConnectionTask"]}
{"id": "C126", "title": "On a UDP socket everything gets done in the long run", "statement": "An endpoint runs on a UDP socket: several tasks, of the endpoint, its listener and connections, and of the socket, which share channels and locks. If no task and no polled call is passed over for ever, and users read their stubs and proxies whenever they are free to, then: every datagram that the socket receives is put into the channel of a connection or dropped; what is put into the channel of a connection is read from it, and the messages in it are handed to their handles or dropped, unless the connection ends; every connection offered by the socket to the endpoint's listener is accepted, unless the listener is dropped; every call of serve, proxy and send_to returns; and every message accepted for sending is handed to the socket or its connection ends. (Violated for messages and calls: the deadlock of C104 happens on a UDP socket. Datagrams are distributed, connections accepted and messages sent without any assumption on users; the rest holds if no queue of a stub or proxy stays full for ever.)", "quantifier": "every infinite run of an endpoint on a UDP socket that is fair to all tasks and calls, every behaviour of users, remotes and network", "why_tests_cant": "Liveness is about what happens at some time in every infinite run; the tasks of the socket and of the endpoint wait for each other in ways that depend on the schedule.", "anchors": ["rsomeip/src/socket/udp.rs: UdpSocket, ReceiverTask, UdpListener, UdpReceiver, UdpSender", "rsomeip/src/endpoint/v1.rs: EndpointTask, Endpoint::serve, Endpoint::proxy, Stub::send_to", "rsomeip/src/endpoint/v1/listener.rs: ListenerTask", "rsomeip/src/endpoint/v1/connection.rs: SenderTask, ReceiverTask"]}
{"id": "C127", "title": "On a TCP socket everything gets done in the long run", "statement": "An endpoint runs on a TCP socket. If no task and no polled call is passed over for ever, the operating system neither keeps what has arrived nor refuses to take what is written for ever, and users read their stubs and proxies whenever they are free to, then: every message accepted for sending is written completely, unless the operating system reports an error on its connection; all bytes that arrive on a connection are read, and the messages in what was read are handed to their handles or dropped, unless the connection ends; every call of serve, proxy and send_to returns. (Violated for received messages and calls: the deadlock of C104 happens on a TCP socket, with the bytes of one read. Messages are written without any assumption on users; the rest holds if no queue of a stub or proxy stays full for ever.)", "quantifier": "every infinite run of an endpoint on a TCP socket that is fair to all tasks, calls and streams, every behaviour of users and remotes, every division of the bytes into reads and writes", "why_tests_cant": "Liveness is about what happens at some time in every infinite run; the operating system may take and return the bytes in pieces of any size.", "anchors": ["rsomeip/src/socket/tcp.rs: TcpSender::send, TcpReceiver::recv", "rsomeip/src/endpoint/v1.rs: EndpointTask, Endpoint::serve, Endpoint::proxy, Stub::send_to", "rsomeip/src/endpoint/v1/listener.rs: ListenerTask", "rsomeip/src/endpoint/v1/connection.rs: SenderTask, ReceiverTask"]}
{"id": "C128", "title": "Programs connected by TCP receive everything in the long run", "statement": "Several programs with endpoints on TCP sockets, and strangers. No task and no polled call is passed over for ever, TCP carries what was written on a connection to its other end, and users read their stubs and proxies. Then every message that send or send_to accepts at one end of a connection between two of the programs is, at the other end, handed to the handle of its interface or dropped, in order and unchanged, unless an error is reported on the connection or it ends. (Violated if a read ends inside a message: the message is never delivered. Proved for the bytes, which are all read at the other end, and for messages if every read ends between messages; and, as in C127, if no queue of a stub or proxy stays full for ever.)", "quantifier": "every infinite run of any number of programs connected by TCP that is fair to all tasks, calls and streams, every division of the bytes into pieces", "why_tests_cant": "Liveness is about what happens at some time in every infinite run of several programs; the bytes arrive in pieces of any size.", "anchors": ["rsomeip/src/socket/tcp.rs: TcpSender::send, TcpReceiver::recv", "rsomeip/src/endpoint/v1.rs: EndpointTask, Stub::send_to, Proxy::send", "rsomeip/src/endpoint/v1/listener.rs: ListenerTask", "rsomeip/src/endpoint/v1/connection.rs: SenderTask, ReceiverTask"]}
{"id": "C129", "title": "Everything can get done as long as no call of send_to is in progress", "statement": "Whatever an endpoint has been through (full queues, waiting tasks, calls of serve and proxy that have not returned, connections that have ended, handles that were dropped): if no call of send_to is in progress at the moment, then there is a way to go on in which only the tasks run and users read from their stubs and proxies, nothing fails and nothing new is asked for, and after which every call of serve and proxy has returned, every message accepted for sending has been handed to the socket (or its connection has ended), and everything received so far has been read and handed to the handles of its interface, or dropped. So no order of calls, arrivals and lost connections, other than one that involves a call of send_to, leads to a deadlock. The same holds for endpoints on UDP sockets, on TCP sockets, and for several programs connected by TCP. While a call of send_to is in progress it is false.", "quantifier": "every reachable state of an endpoint on a UDP or TCP socket, and of any number of programs connected by TCP", "why_tests_cant": "A deadlock depends on the whole history: queue lengths, which tasks have ended, who waits for whom. Tests visit few of these states.", "anchors": ["rsomeip/src/endpoint/v1.rs: EndpointTask, Endpoint::serve, Endpoint::proxy, Stub::recv_from, Proxy::recv", "rsomeip/src/endpoint/v1/connection.rs: SenderTask, ReceiverTask", "rsomeip/src/endpoint/v1/listener.rs: ListenerTask", "rsomeip/src/socket/udp.rs: ReceiverTask, UdpSocket", "rsomeip/src/socket/tcp.rs: TcpSender::send, TcpReceiver::recv"]}
{"id": "C130", "title": "A remote that has closed its TCP connection costs nothing", "statement": "When a remote has closed its side of a TCP connection and what it had sent was read, the connection ends: its task stops and its socket is closed. So what a server needs (tasks, sockets, computing time) depends on the remotes that are connected now, not on how many have been. (Violated: the end of the stream is taken for a packet without messages. A connection that a server accepted goes on until the operating system reports an error on it, the server stops listening, or the same address connects again; meanwhile its task reads nothing from it again and again without ever waiting, and with every client that comes and goes there is one more of them. Holds if the operating system reports an error on the connection.)", "quantifier": "every history and every fair run of an endpoint on a TCP socket, any number of clients", "why_tests_cant": "A test does not notice a task that is left over, nor that it never waits; the number of connections grows with the length of the history.", "anchors": ["rsomeip/src/socket/tcp.rs: TcpReceiver::recv", "rsomeip/src/endpoint/v1/connection.rs: ReceiverTask::recv, ConnectionTask", "rsomeip/src/endpoint/v1/listener.rs: AcceptTask::accept", "rsomeip/src/endpoint/v1.rs: Endpoint::serve"]}
{"id": "C131", "title": "In the long run, dropping everything ends everything, whatever still arrives", "statement": "When the endpoint and all stubs and proxies have been dropped and all requests have been answered, then the task of the endpoint, all listeners and all connections end, and nothing is started again: every connection is closed. This happens at some time in every run in which no task is passed over for ever, however many messages are still waiting to be sent, whatever else arrives meanwhile (messages, packets that are none, new remotes that connect), and also for connections whose remote has closed its side long ago.", "quantifier": "every infinite run that is fair to all tasks, of an endpoint on any socket, and of endpoints on UDP and TCP sockets; every history before the handles are dropped, every behaviour of remotes and network afterwards", "why_tests_cant": "Which task still holds a handle of which other depends on the whole history, and the remotes can go on sending for ever: a test sees only some schedules, and cannot wait for ever.", "anchors": ["rsomeip/src/endpoint/v1.rs: EndpointTask::run, Endpoint, Stub, Proxy", "rsomeip/src/endpoint/v1/listener.rs: ListenerTask, AcceptTask", "rsomeip/src/endpoint/v1/connection.rs: SenderTask, ReceiverTask, ConnectionTask"]}
{"id": "C132", "title": "On a UDP network that loses nothing, every message gets there in the long run", "statement": "When a program sends a message with send_to or with a proxy to another program, both on UDP sockets, and the call has returned Ok, and the message fits into a datagram, then at some later time the other program hands it to the handles of its interface, or drops it because nobody there has a handle for it, in every run in which no task is passed over for ever, the handles of the receiving program are read from again and again, and every datagram that is sent arrives at some time. Datagrams may be delayed, repeated and overtaken; other programs may do what they like, and anybody may send anything. The exceptions can all be seen: the sending connection was closed before the message was sent; the socket of the receiver has failed; the receiving socket dropped the datagram (nobody listens, or too many new remotes wait to be accepted); the receiving connection was too slow, and was told that it missed datagrams; or it has ended.", "quantifier": "every infinite run of any number of programs on a UDP network, fair to the sending connection and to the receiving program; every message that fits into a datagram; every order in which datagrams arrive", "why_tests_cant": "Liveness is about what happens at some time in every infinite run of several programs; the way of a message leads through six tasks and five queues in two programs, each of which can be held up by others.", "anchors": ["rsomeip/src/endpoint/v1.rs: EndpointTask, Stub::send_to, Proxy::send", "rsomeip/src/endpoint/v1/connection.rs: SenderTask, ReceiverTask", "rsomeip/src/endpoint/v1/listener.rs: ListenerTask, AcceptTask", "rsomeip/src/socket/udp.rs: UdpSender::send, UdpReceiver::recv, ReceiverTask"]}
{"id": "C133", "title": "In the long run a handle returns what is sent to it", "statement": "A program on a UDP socket has a stub for an interface, or a proxy for an interface and a remote. Another program sends a message for this interface to it, with a proxy or with send_to, and the call returns Ok. If the message fits into a datagram, no task of the two programs is passed over for ever, every datagram that is sent arrives at some time, and the user of the handle calls recv_from (or recv) again and again, then recv_from returns exactly this message, with the address of the sender (recv of the proxy: exactly this message), some time after it was sent. The exceptions can be seen: those of C132 (the sending connection was closed, the receiving socket failed, or it dropped the datagram), the handle was dropped, or, for a proxy, the connection to its remote has ended or was replaced. At any endpoint, on whatever socket: what was put into the channel of a handle is returned by it, in order, if its user goes on asking for it.", "quantifier": "every infinite run of any number of programs on a UDP network, fair to the sending connection, the receiving program and the user of the handle; every message that fits into a datagram", "why_tests_cant": "This is what a user relies on from end to end; it is about what happens at some time in every infinite run of two programs with all their tasks and queues.", "anchors": ["rsomeip/src/endpoint/v1.rs: Stub::recv_from, Stub::send_to, Proxy::recv, Proxy::send, EndpointTask", "rsomeip/src/endpoint/v1/connection.rs: SenderTask, ReceiverTask", "rsomeip/src/endpoint/v1/listener.rs: ListenerTask, AcceptTask", "rsomeip/src/socket/udp.rs: UdpSender::send, UdpReceiver::recv, ReceiverTask"]}
{"id": "C134", "title": "On whatever socket, and over TCP, in the long run a handle returns what is sent to it", "statement": "A program has a stub for an interface, or a proxy for an interface and a remote, and its user calls recv_from (or recv) again and again. No task and no polled call is passed over for ever. Then every message for this interface that is contained in a packet read from a connection (for a proxy: from a connection to its remote) is returned by the handle, unchanged, with the address of the connection, at some time after it was read, unless the connection ends before it was dealt with, the handle is dropped, accepting connections has failed (stub) or a connection to the remote has failed (proxy). Over TCP, between two programs: every message that send or send_to has accepted on a connection whose other end was or will be accepted is returned by the handle for its interface at the other end, at some time after it was sent, unless the connection breaks, or one of the exceptions above. (Violated as C104, C127 and C128 are: a queue that stays full for ever blocks everything; and a message that is divided between two reads is lost. Proved if no queue of a handle of the receiving program stays full for ever and, over TCP, if every read ends between messages.)", "quantifier": "every infinite run of an endpoint on any socket, and of any number of programs connected by TCP, that is fair to tasks, calls, streams and to the user of the handle; also for messages sent before the other end has accepted the connection", "why_tests_cant": "This is what a user of TCP relies on from end to end; it is about what happens at some time in every infinite run of two programs with all their tasks, queues and streams.", "anchors": ["rsomeip/src/endpoint/v1.rs: Stub::recv_from, Stub::send_to, Proxy::recv, Proxy::send, EndpointTask", "rsomeip/src/endpoint/v1/connection.rs: SenderTask, ReceiverTask", "rsomeip/src/endpoint/v1/listener.rs: ListenerTask, AcceptTask", "rsomeip/src/socket/tcp.rs: TcpSender::send, TcpReceiver::recv"]}
{"id": "C135", "title": "The only thing that can get stuck is a call of send_to that has to wait for a connection", "statement": "The users of the handles of an endpoint do nothing special: they call recv_from and recv again and again, whenever they are not inside another call of the same handle. No task and no polled call is passed over for ever. Then a call of send_to always returns, except if at some point during the call no connection to its destination was registered, so that the endpoint has to be asked to open one; in particular, answering a peer that is connected cannot get stuck, however full the queues are. And if every call of send_to returns (for instance because there are none), then everything else gets done too, however full queues become in between: every call of serve and proxy returns, every message received is handed to the handle of its interface or dropped, unless its connection ends; on a UDP network that loses nothing every message sent is returned by the handle for its interface (with the exceptions of C133), and over TCP everything that is accepted at one end of a connection is read at the other, and what was read is dealt with, unless the connection breaks. So the deadlock of C104 is the only one.", "quantifier": "every infinite run of an endpoint on any socket, and of any number of programs on UDP and TCP networks, that is fair to tasks, calls and users; no assumption on how full queues are", "why_tests_cant": "A deadlock that needs four parties and two full queues shows up in tests rarely, if ever; that there is no other one can only be said by looking at all infinite runs.", "anchors": ["rsomeip/src/endpoint/v1.rs: Stub::send_to, Stub::recv_from, Proxy::recv, EndpointTask::connect", "rsomeip/src/endpoint/v1/connection.rs: SenderTask, ReceiverTask, Connections::get, Connections::send_to"]}
{"id": "C136", "title": "In the long run a server's answers get to its clients", "statement": "A client has connected to a server, which has accepted the connection and registered it before anybody there sent to the client (C115). A stub of the server calls send_to with the address of the client. No task and no polled call of the server is passed over for ever; nothing is asked of those who use its handles. Then the message is put into the queue of exactly this connection, so that no new connection is opened and the call does not wait for the endpoint, unless the call is given up, the stub is dropped, the listener or the connection ends, or somebody connects from the same address anew. On a UDP network that carries everything from the server to the client, a proxy of the client for the server and the interface of the message then returns exactly this message, at some time after send_to was called, if nobody is passed over at the client either, its users read from its handles, its calls of send_to return, and the message fits into a datagram; the exceptions can be seen (those of C133). The same over TCP, unless the connection breaks. (Over TCP violated as C128 is: an answer that is divided between two reads is lost; proved if every read of the client ends between messages.)", "quantifier": "every infinite run of an endpoint on any socket, and of any number of programs on UDP and TCP networks, fair to tasks, calls, the network and the users of the client; every history of connections; whichever stub sends, however full queues are", "why_tests_cant": "This is what the author of a server relies on; it concerns the map of connections, a call that looks into it twice, and the tasks of two programs, over all infinite runs.", "anchors": ["rsomeip/src/endpoint/v1.rs: Stub::send_to, EndpointTask, Proxy::recv", "rsomeip/src/endpoint/v1/connection.rs: Connections::get, Connections::send_to, SenderTask, ReceiverTask", "rsomeip/src/endpoint/v1/listener.rs: AcceptTask::accept", "rsomeip/src/socket/udp.rs, rsomeip/src/socket/tcp.rs"]}
{"id": "C137", "title": "In the long run a question is answered", "statement": "A client sends a request to a server with a proxy or with send_to, and the call returns Ok. The server has a stub for the interface of the request, and its user answers: whenever recv_from has returned the request, send_to is called with the sender and the answer at some later time. The client has a proxy for the server and the interface of the answer. No task and no polled call of the two is passed over for ever, their users read from all handles, and their calls of send_to come to an end (C135). Then, on a UDP network that carries everything between the two, recv of the proxy returns exactly this answer at some time after the request was sent, if both fit into datagrams. It does not matter which connection the server uses. The exceptions can be seen: a connection between the two was closed, a socket has failed or dropped the datagram, the stub or the proxy was dropped, the proxy was cut off from its remote, or the server's call of send_to returned an error or was given up. The same over TCP, if the connection of the client was registered before the server answers (C115), unless it breaks. (Over TCP violated as C128 is: a message that is divided between two reads is lost; proved if every read ends between messages.)", "quantifier": "every infinite run of any number of programs on UDP and TCP networks, fair to the tasks, calls and users of client and server and to the network between them; every request and every answer", "why_tests_cant": "This is what remote procedure calls are for; it depends on all tasks, queues, maps and sockets of two programs, over all infinite runs.", "anchors": ["rsomeip/src/endpoint/v1.rs: Proxy::send, Proxy::recv, Stub::send_to, Stub::recv_from, EndpointTask", "rsomeip/src/endpoint/v1/connection.rs: Connections::get, Connections::send_to, SenderTask, ReceiverTask", "rsomeip/src/endpoint/v1/listener.rs: ListenerTask, AcceptTask", "rsomeip/src/socket/udp.rs, rsomeip/src/socket/tcp.rs"]}
{"id": "C138", "title": "A remote that leaves a connection attempt unanswered holds up nobody else", "statement": "Opening a connection can take the socket long: over TCP a remote that is switched off, or a firewall that drops packets, leaves a connection attempt without an answer for minutes. Meanwhile everybody else goes on. No task and no polled call is passed over for ever; of the socket it is not assumed that it ever answers the endpoint. Then every call of serve and proxy that does not itself need this answer returns; every message received is handed to the handle of its interface or dropped, or its connection ends; every call of send_to to a peer to which a connection is registered returns or is given up, and an answer to a client whose connection is registered is put into the queue of this connection. (The part about serve and proxy is violated: the endpoint task waits for the socket inside its loop, so that no call of serve or proxy returns until the socket has answered, whatever it is for, and neither does any send_to that needs a new connection. Proved: they return or the socket leaves the endpoint without an answer for ever. As in C104, requests and messages need that no queue of a handle stays full for ever.)", "quantifier": "every infinite run of an endpoint on any socket that is fair to its tasks and to calls of send_to, whether the socket answers or not, and for however long it does not", "why_tests_cant": "A test would have to find a remote that does not answer, and wait for longer than any operating system does; and that nothing else depends on the endpoint's task is a statement about all infinite runs.", "anchors": ["rsomeip/src/endpoint/v1.rs: EndpointTask::command, EndpointTask::connect, EndpointTask::connection_or_connect, EndpointTask::listener_or_listen, Stub::send_to", "rsomeip/src/endpoint/v1/connection.rs: ReceiverTask, Connections::get, Connections::send_to", "rsomeip/src/socket/tcp.rs: TcpSocket::connect"]}
{"id": "C139", "title": "A program that crashes and is started again fits in", "statement": "Programs on a UDP network may be killed at any point and started again at the same address, again and again. What a stub or proxy returns as coming from the program at an address was sent to here by that program, in its present or in a former life, with the same fields and payload; and if the network repeats nothing, it is returned no more often, by all lives of the receiving program together, than it was accepted by all lives of the sending one. Others need not know of the crash: once the programs at both ends no longer crash, what is sent on connections and by proxies that were there before the crash is in the long run returned by the stubs and proxies of the program's present life, and what this program answers is returned by proxies made before it crashed, on the same terms as C133.", "quantifier": "every number of programs, every history and every infinite run with crashes at any point, any number of them, of any of the programs; every message", "why_tests_cant": "A test kills a program at a few points. Which messages are under way, in which queues and in which datagrams, and what the other programs remember of the crashed one, differs for each of the points, histories and schedules.", "anchors": ["rsomeip/src/endpoint/v1.rs: Endpoint::spawn, Proxy::send, Proxy::recv, Stub::send_to, Stub::recv_from", "rsomeip/src/endpoint/v1/connection.rs: Connections::get, SenderTask, ReceiverTask", "rsomeip/src/socket/udp.rs: UdpSocket::bind, ReceiverTask"]}
{"id": "C140", "title": "A program that was started again does not get what was meant for the one before it", "statement": "What a stub or proxy of a program returns as coming from another program was sent after this program was started; a proxy does not return an answer to a question that was asked before its program crashed. (Violated: nothing in a message or in the crate tells the lives of a program apart. A program that crashes after its request was answered, is started again and asks again gets the old answer as answer to its new question, even before the question has left. Proved if the network has no datagrams for the former life left when the program is started.)", "quantifier": "every number of programs on a UDP network, every history with crashes at any point; every message", "why_tests_cant": "The old answer must be under way at the very time at which the program is started again; a test would have to control the network, and there is a window after each of infinitely many points of a crash.", "anchors": ["rsomeip/src/endpoint/v1.rs: Endpoint::spawn, Proxy::recv, Stub::recv_from", "rsomeip/src/socket/udp.rs: UdpSocket::bind, ReceiverTask", "rsomeip-proto/src/endpoint.rs"]}
{"id": "C141", "title": "Nobody waits for ever for what cannot come", "statement": "When the connection of a proxy has ended, that is, send has said so, or the task of a connection for which send took a message has ended, or the tasks of all connections there ever were with its remote have, then send does not wait but fails at once and says that it is not connected; and if the user goes on calling recv, then after what is left in its channel recv reports the end in the long run, unless the proxy is dropped. In the same way recv_from of a stub reports the end in the long run when all listeners have ended and its user goes on calling it. Nothing is asked of sockets, remotes, the endpoint's task or the users of other handles; only that a connection that can put a message into a channel does so at some time. (An orderly close by the remote over TCP is not noticed, C63 and C130, so a connection does not end then.)", "quantifier": "every infinite run of an endpoint on any socket that is fair to the connections' receiving tasks and to the user of the handle; every history before the end", "why_tests_cant": "A handle ends only when the last of its many owners is gone, among them connections that are just about to hand over a message; that none of them is forgotten, and that their number cannot grow again, is a statement about all infinite runs.", "anchors": ["rsomeip/src/endpoint/v1.rs: Proxy::send, Proxy::recv, Stub::recv_from, EndpointTask", "rsomeip/src/endpoint/v1/connection.rs: ConnectionTask, SenderTask, ReceiverTask", "rsomeip/src/endpoint/v1/listener.rs: ListenerTask", "rsomeip/src/endpoint/v1/interface.rs: Interface"]}
{"id": "C142", "title": "When a UDP socket is gone, everybody is told", "statement": "When the operating system's socket has failed and the endpoint's task has dropped its UdpSocket, then in the long run every connection ends, recv of every proxy and recv_from of every stub whose user goes on reading returns what is left and then reports the end, unless the handle is dropped. No task and no polled call is passed over for ever, no handle stays full for ever. (C84 is the converse: they report the end for no other reason, but for a second connection and failed sending.)", "quantifier": "every infinite run of an endpoint on a UDP socket that is fair to its tasks, to calls and to the user of the handle; every history before", "why_tests_cant": "The news travels from the socket's task through channels with capacity and overflow, connection and listener tasks and reference counts to the users; that it gets through on every way is a statement about all infinite runs.", "anchors": ["rsomeip/src/endpoint/v1.rs: Proxy::recv, Stub::recv_from, EndpointTask", "rsomeip/src/endpoint/v1/connection.rs: ReceiverTask", "rsomeip/src/endpoint/v1/listener.rs: ListenerTask, AcceptTask", "rsomeip/src/socket/udp.rs: UdpReceiver::recv, UdpListener::accept, ReceiverTask"]}
{"id": "C143", "title": "Over TCP a program that was started again reads nothing that was meant for the one before it", "statement": "Programs connected by TCP may be killed at any point and started again at the same address, again and again; the others learn of it late or never. What arrives on a connection of a program comes from one connection of one life of the program at the other end, in order, without gaps. If the receiving program was started again, then that connection was made, and everything that send or send_to has taken for it was taken, after this: what others still send on connections to the former program does not reach the new one either. So every message that a stub or proxy returns was found in bytes written by the program it is said to come from, in its present or a former life, and in such bytes of messages taken after the receiving program was started last. (Over UDP this is violated, C140.)", "quantifier": "every number of programs and strangers, every history with crashes at any point, any number of them, of any of the programs; every split of the bytes into pieces and reads; every message", "why_tests_cant": "Bytes of several lives are under way, in the queues, buffers and backlogs of programs that do not know of each other's crashes; a test kills a program at a few points.", "anchors": ["rsomeip/src/endpoint/v1.rs: Endpoint::spawn, Proxy::recv, Stub::recv_from, EndpointTask", "rsomeip/src/endpoint/v1/connection.rs: SenderTask, ReceiverTask", "rsomeip/src/endpoint/v1/listener.rs: AcceptTask", "rsomeip/src/socket/tcp.rs: TcpSocket, TcpConnector, TcpListener, TcpSender, TcpReceiver"]}
{"id": "C144", "title": "Over TCP what a program returns was sent to it, also if programs crash", "statement": "Programs connected by TCP may be killed at any point and started again at the same address. What a stub or proxy returns as coming from the program at an address was sent to here by that program, in its present or in a former life, as the same message; and if the receiving program was started again, it was taken by send or send_to after that, for a connection made after that. A proxy does not return an answer to a question that was asked before its program crashed, unless it is sent after the crash. (Violated as C121 is: if a read ends inside a message, a message is returned that was never sent, in no life. Proved if every read of the receiving program ends between messages, and the messages can be expressed in the format.)", "quantifier": "every number of programs and strangers, every history with crashes at any point, any number of them, of any of the programs; every message", "why_tests_cant": "As for C143; and which messages are found in the bytes depends on where reads end.", "anchors": ["rsomeip/src/endpoint/v1.rs: Endpoint::spawn, Proxy::send, Proxy::recv, Stub::send_to, Stub::recv_from", "rsomeip/src/endpoint/v1/connection.rs: SenderTask, ReceiverTask", "rsomeip/src/socket/tcp.rs: TcpSocket, TcpConnector, TcpListener, TcpSender, TcpReceiver"]}
{"id": "C145", "title": "Over TCP a message sent once is returned once at most, also if programs crash", "statement": "Programs connected by TCP may be killed at any point and started again at the same address. All stubs and proxies at an address together, in all lives of the program there, return a message as coming from another program at most as often as send and send_to have accepted it there for this address, in all lives of that program. The library duplicates nothing on the way, and no crash makes a message come twice. (Violated as C121 is: if a read ends inside a message, a message is returned that was never sent. Proved if every read of the receiving program ends between messages, and the messages can be expressed in the format. Histories without crashes are included.)", "quantifier": "every number of programs and strangers, every history with crashes at any point, any number of them, of any of the programs; every message", "why_tests_cant": "It is a statement about the sum over all connections of all lives of two programs; a test has one history, and each of them has its own pairing of connections.", "anchors": ["rsomeip/src/endpoint/v1.rs: Endpoint::spawn, Proxy::send, Proxy::recv, Stub::send_to, Stub::recv_from", "rsomeip/src/endpoint/v1/connection.rs: SenderTask, ReceiverTask", "rsomeip/src/endpoint/v1/listener.rs: AcceptTask", "rsomeip/src/socket/tcp.rs: TcpSocket, TcpConnector, TcpListener, TcpSender, TcpReceiver"]}
{"id": "C146", "title": "Over TCP programs that have crashed receive everything again in the long run", "statement": "Programs connected by TCP may be killed and started again, again and again, up to some point in time; from then on two of them are not killed any more. Whatever state the crashes have left behind: everything that send and send_to accept in the one on a connection to the other, made before or after this point, is in the long run read there completely and in order, and a message for an interface with a stub or proxy there is returned by it after it was sent, if its user goes on reading; unless the connection breaks or the handle is dropped. No task, no polled call and no byte under way is passed over for ever, no handle stays full for ever. A connection that is accepted has its other end in the present life of the other program or in one that has ended. (Violated as C128 is: if a read ends inside a message, the message is never returned. Proved for bytes; and for messages if every read on the connection ends between messages.)", "quantifier": "every number of programs and strangers; every infinite run that is fair to the two programs, with any crashes of the others and any crashes of the two before some point; every message", "why_tests_cant": "What is left of former lives (connections that wait to be accepted, bytes under way, tasks that wait for answers) must not hold up the new ones; that is a statement about all infinite runs after all histories with crashes.", "anchors": ["rsomeip/src/endpoint/v1.rs: Endpoint::spawn, Proxy::send, Proxy::recv, Stub::send_to, Stub::recv_from, EndpointTask", "rsomeip/src/endpoint/v1/connection.rs: ConnectionTask, SenderTask, ReceiverTask", "rsomeip/src/endpoint/v1/listener.rs: ListenerTask, AcceptTask", "rsomeip/src/socket/tcp.rs: TcpSocket, TcpConnector, TcpListener, TcpSender, TcpReceiver"]}
{"id": "C147", "title": "When a TCP connection is gone, the proxy that uses it is told", "statement": "When the remote has closed the TCP connection of a proxy, or the operating system has reported an error on it, then send fails at once and says that it is not connected; and if the user goes on calling recv, then after what is left in its channel recv reports the end in the long run, unless the proxy is dropped. (Violated if the remote closes the connection in order, as a server that ends does: recv then waits for ever, although nobody is passed over, because the end of the stream is taken for a read without messages. Proved if an error was reported, by a read or by a write: on a connection for which send has taken a message, or on all that there ever were with the remote. C92 is the converse: nothing else makes recv report the end or send fail.)", "quantifier": "every history of an endpoint on a TCP socket and every infinite run after it that does not pass over the connections' tasks and the calls of recv; whatever sockets, remotes, and the users of other handles do", "why_tests_cant": "That recv returns at some time is a statement about infinite runs; that it does not return in a fair one can be seen in no finite test, and tests of closed connections would have to know that this one is never noticed.", "anchors": ["rsomeip/src/endpoint/v1.rs: Proxy::send, Proxy::recv", "rsomeip/src/endpoint/v1/connection.rs: ReceiverTask::recv, SenderTask::commands, ConnectionTask", "rsomeip/src/socket/tcp.rs: TcpReceiver::recv, TcpSender::send"]}
{"id": "C148", "title": "When crashes have come to an end, questions are answered again", "statement": "Client and server, with any other programs, on a UDP network may be killed at any point and started again, again and again, up to some point in time. A question that the client asks after that, by a proxy or on a connection that may be older than the last crash of the server, is answered on the same terms as in C137: a stub of the server's present life gets it, its user answers with send_to at some later time, and then recv of the client's proxy, which may also be older than the crash, returns exactly this answer. The exceptions can be seen in the present lives of the two: a connection between them was closed, a socket has failed or dropped the datagram, the stub or the proxy was dropped, the proxy was cut off from its remote, or the server's call of send_to returned an error or was given up.", "quantifier": "every infinite run of any number of programs with crashes at any point, those of client and server before some point, that is fair to the tasks, calls and users of the two and to the network between them from then on; every question and answer", "why_tests_cant": "That an old proxy and an old connection still work with a server that has lost all it knew depends on what both ends remember, at every point at which a crash can happen, and over all infinite runs after it.", "anchors": ["rsomeip/src/endpoint/v1.rs: Endpoint::spawn, Proxy::send, Proxy::recv, Stub::send_to, Stub::recv_from, EndpointTask", "rsomeip/src/endpoint/v1/connection.rs: Connections::get, Connections::send_to, SenderTask, ReceiverTask", "rsomeip/src/endpoint/v1/listener.rs: ListenerTask, AcceptTask", "rsomeip/src/socket/udp.rs: UdpSocket::bind, ReceiverTask"]}
{"id": "C149", "title": "Over TCP, when crashes have come to an end, questions are answered again", "statement": "Client and server, with any other programs, are connected by TCP and may be killed at any point and started again, again and again, up to some point in time. A question that the client sends after that, on a connection to the server's present life, is answered on the same terms as in C137: a stub of the server's present life gets it, its user answers with send_to at some later time, when the client's connection was registered (C115), and then recv of the client's proxy returns exactly this answer. What is left of former lives, connections that wait to be accepted, bytes under way and connections to programs that are gone, does not stand in the way. The exceptions can be seen in the present lives of the two: the connection is broken, the stub or the proxy was dropped, accepting connections has failed or the listener has ended, the call of send_to was given up, somebody connects from the client's address anew, or the client's system has reported an error on a connection to the server. (Violated as C146 is: a message that is divided between two reads is lost; proved if every read on this connection ends between messages.)", "quantifier": "every infinite run of any number of programs and strangers with crashes at any point, those of client and server before some point, that is fair to the tasks, calls and users of the two and to TCP between them; every question and answer", "why_tests_cant": "As for C146 in both directions at once; and that the answer takes the connection of the client's present life, not one of a former life that has the same address, has to hold whatever the crashes have left behind.", "anchors": ["rsomeip/src/endpoint/v1.rs: Endpoint::spawn, Proxy::send, Proxy::recv, Stub::send_to, Stub::recv_from, EndpointTask", "rsomeip/src/endpoint/v1/connection.rs: Connections::get, Connections::send_to, SenderTask, ReceiverTask", "rsomeip/src/endpoint/v1/listener.rs: ListenerTask, AcceptTask", "rsomeip/src/socket/tcp.rs: TcpSocket, TcpConnector, TcpListener, TcpSender, TcpReceiver"]}
