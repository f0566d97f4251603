{"id": "C01", "title": "Set-then-get round trip for every field kind", "statement": "After SetX(v) on a non-repeated field of a usable message (zero value, Reset, decoded from minimal-tag valid bytes, or already mutated), the getter X() of that field returns exactly v and neither call panics, for each of bool, int32, int64, uint32/enum, uint64, sint32, sint64, fixed32, fixed64, sfixed32, sfixed64, float, double, string, bytes (floats compared by bit pattern).", "quantifier": "every field kind, every value of the kind, every usable message state, every field number in range, every append-growth policy and map iteration order of the runtime", "why_tests_cant": "The value domain is 2^64 wide and the state space (field order, sizes, array/map offset storage) is unbounded; tests sample a handful of values on one layout.", "anchors": ["zeropb.go:SetBool..SetBytes", "zeropb.go:GetBool..GetBytes", "zeropb.go:setSingle"]}
{"id": "C02", "title": "A setter changes no other field", "statement": "SetX on one field leaves the getter result of every other non-repeated field, and the element sequence of every repeated field, unchanged.", "quantifier": "every pair of distinct fields, every usable message state, every old and new encoded length", "why_tests_cant": "The bug surface is the byte shifting and offset adjustment, which depends on the relative order and sizes of all fields and on the 65535 boundary.", "anchors": ["zeropb.go:setSingle", "offsets.go:Offsets.Set"]}
{"id": "C03", "title": "Any history of operations behaves like a simple record", "statement": "Starting from the zero struct, after any sequence of setter calls, AppendTo calls, Resets and Decodes of valid minimal-tag messages, every getter returns the value most recently set (or decoded) since the last Reset/Decode, or the default if there is none, and every repeated field iterates the appended (or decoded) elements in order. No call panics as long as the encoded message stays below 2^63 bytes.", "quantifier": "all finite operation sequences over all schemas, with all payloads", "why_tests_cant": "Histories are unbounded; the randomized test only samples 1000-step histories of small messages.", "anchors": ["zeropb.go:setSingle", "zeropb.go:appendSingle", "zeropb.go:Decode", "golden/testzeropb/test.zeropb.go:TestMessage"]}
{"id": "C04", "title": "Unset fields read as their default", "statement": "On a message in which a field does not occur, its getter returns the zero value (false, 0, empty string, nil slice), a message accessor returns (false, nil) without touching its argument, and a repeated accessor returns an iterator whose first Next is (false, nil); none of these panic.", "quantifier": "every field kind, every usable message in which the field does not occur", "why_tests_cant": "Must hold for every message content, not only for the zero struct.", "anchors": ["zeropb.go:GetBool..GetBytes", "zeropb.go:GetRepeatedNonPacked", "zeropb.go:FindNextField", "offsets.go:Offsets.Get"]}
{"id": "C05", "title": "Encode then Decode reproduces the message", "statement": "The bytes returned by Encode on any message built by setters, AppendTo, Reset and valid Decodes are accepted by Decode (nil error, no panic, terminates), in a fresh or reused struct of the same type, and every getter and iterator of the decoded struct agrees with the original.", "quantifier": "all operation histories, all previous contents of the destination struct", "why_tests_cant": "Round-trip over unbounded histories and sizes, including messages larger than 65535 bytes.", "anchors": ["golden/testzeropb/test.zeropb.go:Encode", "golden/testzeropb/test.zeropb.go:Decode", "zeropb.go:Decode", "zeropb.go:setSingle", "zeropb.go:appendSingle"]}
{"id": "C06", "title": "Encode always yields valid protobuf with the same meaning", "statement": "The bytes returned by Encode are a well-formed protobuf message according to the wire-format specification (a concatenation of tag/value records), and a specification-level parser that keeps the last occurrence of singular fields and all occurrences of repeated fields reads exactly the values the setters were given. Values with numbers for which there is no accessor, which a decoded message brought along, are all kept, in order. So other protobuf implementations can read it.", "quantifier": "all operation histories", "why_tests_cant": "Interop with every conforming reader needs a statement about all outputs, not about outputs observed in tests against one other library.", "anchors": ["golden/testzeropb/test.zeropb.go:Encode", "zeropb.go:setSingle", "zeropb.go:appendSingle"]}
{"id": "C07", "title": "Decode accepts every valid message from any encoder", "statement": "For every well-formed protobuf message (any field order, non-minimal varints, repeated occurrences, interleaving) whose field numbers are at most the largest declared one, Decode returns nil, and each getter of a field encoded with its declared wire type returns the value the wire format assigns.", "quantifier": "all well-formed byte strings below 2^63 bytes with known field numbers, all schemas", "why_tests_cant": "Inputs come from other encoders; the space of valid encodings is infinite.", "anchors": ["zeropb.go:Decode", "zeropb.go:fieldDataSize", "zeropb.go:GetBool..GetBytes"]}
{"id": "C08", "title": "Duplicate singular fields: last one wins", "statement": "If a non-repeated field occurs several times in a decoded message, its getter returns the value of the last occurrence, and overwriting it with a setter makes the getter return the new value although older occurrences remain in the bytes. In particular, an embedded message encoded in several pieces is accepted by Decode without an error (contrary to the README) and its accessor decodes the last piece only: the pieces are not merged (refutation of the protobuf rule).", "quantifier": "all well-formed messages with any number of duplicates", "why_tests_cant": "Needs all positions and multiplicities of duplicates.", "anchors": ["zeropb.go:Decode", "zeropb.go:setSingle", "golden/testzeropb/test.zeropb.go:Message", "README.md"]}
{"id": "C09", "title": "Iteration visits every element of a repeated field exactly once, in order, and stops", "statement": "For a decoded or built message, calling Next on the iterator of a repeated message field returns (true, ..) once for each occurrence of the field in wire order with exactly that occurrence's bytes, then (false, nil), and (false, nil) for ever after, whatever other fields are interleaved.", "quantifier": "all usable messages, all element counts and interleavings", "why_tests_cant": "Element counts and interleavings are unbounded.", "anchors": ["zeropb.go:GetRepeatedNonPacked", "zeropb.go:FindNextField", "golden/testzeropb/test.zeropb.go:TestMessageTestMessageIterator.Next"]}
{"id": "C10", "title": "AppendTo adds exactly one element at the end", "statement": "AppendToX(e) extends the sequence iterated by X with e's encoding as last element and changes no other field.", "quantifier": "all usable messages, all elements, including the empty message", "why_tests_cant": "Needs all states, including fields stored after 65535 bytes.", "anchors": ["zeropb.go:AppendBytes", "zeropb.go:appendSingle", "golden/testzeropb/test.zeropb.go:AppendToMessages"]}
{"id": "C11", "title": "Message-field presence", "statement": "The accessor of a sub-message field returns true exactly when the field occurs in the message; SetX with an empty message makes it present (true with an empty message), it is never confused with absent.", "quantifier": "all usable messages, all sub-messages including the empty one", "why_tests_cant": "Depends on nil versus empty slices in every state.", "anchors": ["golden/testzeropb/test.zeropb.go:Message", "golden/testzeropb/test.zeropb.go:SetMessage", "zeropb.go:GetBytes"]}
{"id": "C12", "title": "Trees of messages survive a round trip", "statement": "Building a TestMessage tree of arbitrary depth and fan-out field by field with the setters, SetMessage and AppendToMessages and reading it back with the getters, Message and Messages/Next yields the same tree; likewise when the bytes go through Encode and Decode.", "quantifier": "all finite trees of TestMessage values below 2^63 bytes encoded", "why_tests_cant": "Recursion depth and fan-out are unbounded; the random test uses depth 3.", "anchors": ["rand_test.go:gogoToZeroViaCopy", "rand_test.go:zeroToGogoViaCopy", "golden/testzeropb/test.zeropb.go:SetMessage", "golden/testzeropb/test.zeropb.go:AppendToMessages"]}
{"id": "C13", "title": "Truncated input is reported as io.ErrUnexpectedEOF", "statement": "If the input is a valid message cut off strictly inside a record, Decode returns io.ErrUnexpectedEOF; it does not panic, loop or accept.", "quantifier": "all well-formed messages with known field numbers, all cut points not on a record boundary", "why_tests_cant": "Every cut point of every message.", "anchors": ["zeropb.go:Decode", "zeropb.go:fieldDataSize"]}
{"id": "C14", "title": "What Decode does on every input", "statement": "Every input of a length a Go slice can have splits as a valid message A with known field numbers followed by X where: X is empty, and Decode returns nil; or X is a record cut off by the end of the input, and Decode returns io.ErrUnexpectedEOF; or X starts with a defect (field number above the largest declared one, unsupported wire type, varint overflowing 64 bits, length pointing beyond 2^63). Of the defects the first two, and lengths below 2^63 that point beyond it, always panic. The unrestricted claim 'Decode always returns' is refuted: among the other defects there are inputs on which Decode loops for ever, panics, or accepts an invalid message.", "quantifier": "all byte strings, all schemas, all previous struct contents (the refutations are concrete inputs)", "why_tests_cant": "Adversarial inputs; no fuzzing budget shows absence, and the failing inputs are rare.", "anchors": ["zeropb.go:Decode", "zeropb.go:fieldDataSize", "offsets.go:Offsets.Set"]}
{"id": "C15", "title": "When a nil error from Decode means the getters are safe", "statement": "If Decode returns nil and the input contains no defect in the sense of C14, the input is a valid message and the getter of each singular field returns (no panic) if the field is absent or its last occurrence carries the declared wire type. Without the wire type condition the claim is refuted: a bytes field encoded as a varint is accepted by Decode and its getter panics.", "quantifier": "all byte strings without a defect, all schemas, all fields", "why_tests_cant": "Adversarial inputs.", "anchors": ["zeropb.go:Decode", "zeropb.go:GetBytes", "zeropb.go:GetFixedUint64"]}
{"id": "C16", "title": "Decode and Reset forget the previous contents of the struct", "statement": "The result of Decode(buf) (error or nil, and afterwards every getter) does not depend on what the struct held before; after Reset every field is unset.", "quantifier": "all previous struct states reachable or not with intact offset storage, all inputs", "why_tests_cant": "Stale offsets would only show for particular pairs of old and new messages.", "anchors": ["zeropb.go:Decode", "offsets.go:Offsets.Clear", "golden/testzeropb/test.zeropb.go:Reset", "golden/testzeropb/test.zeropb.go:Decode"]}
{"id": "C17", "title": "Offsets behaves like a map from field id to offset", "statement": "Any sequence of Set and Clear calls on an Offsets followed by Get(f) returns the offset last Set for f since the last Clear, or not-present; for offsets of any size in 1..2^64-1 (array and overflow map are indistinguishable).", "quantifier": "all sequences of Set/Clear with field ids in range and nonzero offsets", "why_tests_cant": "All sequences crossing the 65534/65535 boundary in both directions.", "anchors": ["offsets.go:Offsets.Get", "offsets.go:Offsets.Set", "offsets.go:Offsets.Clear"]}
{"id": "C18", "title": "Overflow map and array stay consistent", "statement": "In every reachable message state a field id is present in the overflow map if and only if its array slot holds the sentinel 65535, so a field is never recorded in two places or lost.", "quantifier": "all operation histories", "why_tests_cant": "It is the documented invariant of Offsets, to hold after every history.", "anchors": ["offsets.go:Offsets", "zeropb.go:setSingle", "zeropb_test.go:verifyOffsetsInvariants"]}
{"id": "C19", "title": "The overflow map and long messages", "statement": "If the encoded message has never exceeded 65535 bytes since the struct was zero, the overflow map is still nil after any sequence of Decode, Reset, setters and AppendTo (the README's zero-allocation claim for the offset index). Longer messages work like others: they can be built and read without a panic (contrary to the README).", "quantifier": "all operation histories whose buffer stays at most 65535 bytes long", "why_tests_cant": "A claim about all histories; an allocation test samples one.", "anchors": ["offsets.go:Offsets.Set", "README.md:Performance Expectations", "README.md:The Road to v1.0.0"]}
{"id": "C20", "title": "Map iteration order is irrelevant", "statement": "The effect of a setter does not depend on the order in which the Go runtime iterates the overflow map while offsets are adjusted.", "quantifier": "all iteration orders, all states with any number of map entries", "why_tests_cant": "Go randomizes the order; tests see only some orders.", "anchors": ["zeropb.go:setSingle"]}
{"id": "C21", "title": "Setting a field to its current value again changes nothing", "statement": "Calling the same setter twice with the same value leaves the encoded bytes exactly as after the first call, and overwriting with another value of the same encoded length changes only the bytes of that value.", "quantifier": "all usable states, all values", "why_tests_cant": "All layouts.", "anchors": ["zeropb.go:setSingle"]}
{"id": "C22", "title": "Setters of different fields commute observably", "statement": "Setting two different fields in either order gives messages with equal getters and iterators (the bytes may differ).", "quantifier": "all usable states, all pairs of fields and values", "why_tests_cant": "All pairs and layouts.", "anchors": ["zeropb.go:setSingle"]}
{"id": "C23", "title": "No space leak: one record per set field", "statement": "In a message built from empty by setters and AppendTo, each singular field occurs exactly once in the encoding however often it was overwritten, and the encoded length is the sum over set fields of tag length plus current value length.", "quantifier": "all operation histories from Reset or zero struct", "why_tests_cant": "All histories.", "anchors": ["zeropb.go:setSingle"]}
{"id": "C24", "title": "Varint primitives are inverse and minimal, scratch buffers suffice", "statement": "Every 64-bit value is written as the shortest varint and read back, followed by arbitrary bytes; the fixed-size scratch arrays of the setters (5 bytes for uint32 and sint32, 10 otherwise) are always long enough, so no setter panics in the varint encoder.", "quantifier": "all 2^64 values (2^32 for the 32-bit ones), all following bytes", "why_tests_cant": "2^64 values.", "anchors": ["zeropb.go:SetUint32", "zeropb.go:SetZigZagInt32", "zeropb.go:SetInt32", "encoding/binary PutUvarint/Uvarint (Go 1.12)"]}
{"id": "C25", "title": "Zig-zag coding", "statement": "sint32 and sint64 values are mapped to 2n for n >= 0 and -2n-1 for n < 0 before varint encoding, so values of magnitude up to 63 take one byte and every value reads back.", "quantifier": "all int32 and int64 values", "why_tests_cant": "2^64 values.", "anchors": ["zeropb.go:SetZigZagInt32", "zeropb.go:SetZigZagInt64", "zeropb.go:GetZigZagInt32", "zeropb.go:GetZigZagInt64"]}
{"id": "C26", "title": "Integer width conversions follow the protobuf rules", "statement": "A negative int32 is written as its 64-bit two's complement (10 bytes); reading a varint of any size as int32, uint32, enum or bool gives the value reduced modulo 2^32 (sign-interpreted for int32) or nonzero-ness for bool.", "quantifier": "all 64-bit wire values", "why_tests_cant": "2^64 values.", "anchors": ["zeropb.go:SetInt32", "zeropb.go:GetInt32", "zeropb.go:GetUint32", "zeropb.go:GetBool"]}
{"id": "C27", "title": "Decoding is lazy", "statement": "Decode's result does not depend on the contents of length-delimited fields, only on their lengths: an invalid embedded message does not make the outer Decode fail; the sub-message accessor or Next then returns true together with exactly the error a direct Decode of the embedded bytes would return.", "quantifier": "all well-formed outer messages, all replacement payloads of equal length", "why_tests_cant": "All payloads.", "anchors": ["zeropb.go:Decode", "golden/testzeropb/test.zeropb.go:Message", "golden/testzeropb/test.zeropb.go:TestMessageTestMessageIterator.Next"]}
{"id": "C28", "title": "Unknown fields inside the known number range are preserved", "statement": "Records whose field number is undeclared but smaller than the largest declared one are kept byte for byte, in order, by every setter and AppendTo.", "quantifier": "all well-formed messages, all operation histories after Decode", "why_tests_cant": "All histories.", "anchors": ["zeropb.go:Decode", "zeropb.go:setSingle"]}
{"id": "C29", "title": "Unknown fields above the known number range make Decode panic", "statement": "Decode does not skip records whose field number is larger than every declared one, as protobuf schema evolution would require: on every valid message containing such a record it panics with index out of range, whatever the schema, the record and the previous contents of the struct.", "quantifier": "all schemas, all valid messages with at least one larger field number, all previous struct contents", "why_tests_cant": "Every schema and every unknown number.", "anchors": ["zeropb.go:Decode", "offsets.go:Offsets.Set", "generate/generate.go:generateMessage"]}
{"id": "C30", "title": "Setters are safe on decoded messages whose overwritten tag is minimal", "statement": "After Decode of any well-formed message whose fields carry their declared wire types, a setter whose field is absent or whose last occurrence has a minimally encoded tag returns, sets its field, and leaves all other getters and iterators unchanged (other tags and values may be non-minimal). The minimality condition is needed: there is a valid message on which the setter leaves stray tag bytes behind and an element of a repeated field disappears.", "quantifier": "all well-formed well-typed messages, all fields and values, all runtimes", "why_tests_cant": "The failing encodings are never produced by mainstream encoders, so tests do not see them.", "anchors": ["zeropb.go:setSingle"]}
{"id": "C31", "title": "Messages with separate buffers do not interfere", "statement": "Operations on several messages whose buffers are different arrays can be interleaved in any order; each message behaves as if it were alone, and no byte outside a message's own backing array capacity is ever written.", "quantifier": "all interleavings of all operation sequences on any number of messages", "why_tests_cant": "All schedules.", "anchors": ["zeropb.go:setSingle", "zeropb.go:appendSingle"]}
{"id": "C32", "title": "Setters copy their argument", "statement": "After SetBytes/SetString/SetMessage/AppendTo with an argument that does not share memory with the message, the field holds the bytes the argument had at the time of the call, whatever is later written to the argument's memory. The condition is needed: SetBytes with a slice of the message's own buffer, of another length, stores wrong bytes.", "quantifier": "all messages, all arguments in separate memory, all later writes", "why_tests_cant": "All aliasing patterns.", "anchors": ["zeropb.go:SetBytes", "zeropb.go:setSingle"]}
{"id": "C33", "title": "What mutating an extracted sub-message can change in its parent", "statement": "Whatever calls are made on a message obtained from a sub-message accessor, the singular fields of the parent that do not occur behind the sub-message keep their values; more generally no call on messages whose memory does not reach the first records of a message changes the fields held only there. Setting an absent field of an extracted message without spare capacity changes no other message and separates the two for good. The unrestricted claim is refuted: the extracted slice has capacity reaching into the parent's following bytes, so setting an absent field overwrites the parent's next field; and an overwrite of equal length writes through to the parent.", "quantifier": "all parents, sub-messages, and histories of calls on the sub-message", "why_tests_cant": "Depends on capacities, which unit tests do not control.", "anchors": ["golden/testzeropb/test.zeropb.go:Message", "zeropb.go:GetBytes", "zeropb.go:setSingle"]}
{"id": "C34", "title": "Readers never write and return views into the message", "statement": "Decode, getters and iterators modify no byte of memory, and the slices returned by bytes getters, sub-message accessors and iterators lie inside the message's own bytes (zero copy), for valid messages.", "quantifier": "all usable messages, all fields", "why_tests_cant": "All states; needed for concurrent readers.", "anchors": ["zeropb.go:GetBytes", "zeropb.go:GetString", "zeropb.go:FindNextField", "zeropb.go:Decode"]}
{"id": "C35", "title": "Reset", "statement": "Reset(buf) panics if and only if len(buf) > 0, in which case the struct is unchanged; otherwise the message becomes empty and subsequently uses buf's capacity as storage.", "quantifier": "all structs, all buffers of any capacity", "why_tests_cant": "All states.", "anchors": ["golden/testzeropb/test.zeropb.go:Reset", "offsets.go:Offsets.Clear"]}
{"id": "C36", "title": "What can be read after a failed Decode", "statement": "After Decode of a valid message cut off inside a record returned io.ErrUnexpectedEOF, the getter of every singular field other than the one cut off returns what the complete records say. The getter of the cut-off field may panic (refutation of 'a failed Decode leaves all getters usable').", "quantifier": "all messages cut off inside a record, all other fields", "why_tests_cant": "All rejected inputs.", "anchors": ["zeropb.go:Decode", "zeropb.go:GetBytes"]}
{"id": "C37", "title": "Getters never read outside a well-typed message", "statement": "For every valid well-typed message, getters and iterators give the same results whatever lies behind the message bytes in the backing array. The typing condition is needed: a fixed32 field encoded as a varint at the end of the message makes its getter return bytes from the spare capacity.", "quantifier": "all readable messages, all spare capacities and contents, all fields", "why_tests_cant": "Depends on capacity contents.", "anchors": ["zeropb.go:GetFixedUint32", "zeropb.go:GetFixedUint64", "zeropb.go:GetBytes"]}
{"id": "C38", "title": "Concatenating encodings merges messages", "statement": "Decode of the concatenation of two valid messages gives, for each singular field, the second message's value if it has one and otherwise the first's, and for each repeated field the concatenation of the two element sequences (no recursive merge of sub-messages).", "quantifier": "all pairs of valid messages", "why_tests_cant": "All pairs.", "anchors": ["zeropb.go:Decode"]}
{"id": "C39", "title": "Decode work is linear in top-level records", "statement": "Decode of a well-formed message performs exactly one loop iteration per top-level record plus a final one, independent of the contents of sub-messages.", "quantifier": "all well-formed messages", "why_tests_cant": "A complexity claim for all inputs.", "anchors": ["zeropb.go:Decode", "README.md:Benchmarks"]}
{"id": "C40", "title": "Varint reader versions agree", "statement": "The Go 1.12 Uvarint (pinned by go.mod) and the newer Uvarint that stops after ten bytes agree on every input on which either succeeds, so valid messages behave the same under later Go versions.", "quantifier": "all byte strings", "why_tests_cant": "All inputs.", "anchors": ["go.mod", "zeropb.go:Decode"]}
{"id": "C41", "title": "Generated offset table covers every declared field", "statement": "For every message descriptor with nonnegative field numbers, the generated struct's offsets array is longer than every declared field number, so no generated accessor indexes it out of range; and the generated accessor of each field passes that field's own number and the Get/Set pair of its declared type.", "quantifier": "all message descriptors accepted by the generator", "why_tests_cant": "All schemas.", "anchors": ["generate/generate.go:generateMessage", "generate/generate.go:generateSimpleField", "generate/generate.go:fieldToGoTypeSimple"]}
{"id": "C42", "title": "Generated repeated-field table is exact", "statement": "The RepeatedFields set emitted for a message contains exactly the numbers of the fields labelled repeated.", "quantifier": "all message descriptors", "why_tests_cant": "All schemas.", "anchors": ["generate/generate.go:generateMessage"]}
{"id": "C43", "title": "Generator selects and names files", "statement": "Generate returns one output file for each non-nil input file whose name was requested, in input order, and none else; foo.proto becomes foo.zeropb.go when foo does not itself contain '.proto'.", "quantifier": "all generator requests", "why_tests_cant": "All requests.", "anchors": ["generate/generate.go:Generate", "generate/generate.go:generateFile"]}
{"id": "C44", "title": "When generated declarations collide", "statement": "No package-level name and no method is declared twice in a generated file if and only if the names computed from its descriptors (message types, repeated-field tables and iterator types of all messages; Encode, Decode, Reset and the getter, setter and AppendTo names of each message) are different. Sufficient: different message names, different Go names of fields per message that are not Encode/Decode/Reset and do not start with Set or AppendTo, at most one repeated field per message and element type, no two messages whose name and element type concatenate alike, no type starting with repeatedFields_. Distinct proto names are not sufficient (refutation): fields a_b and aB, x and set_x, a field encode, two repeated fields of the same message type, A with repeated BC next to AB with repeated C.", "quantifier": "all file descriptors, all Unicode tables", "why_tests_cant": "Ranges over all schemas; golden tests fix two.", "anchors": ["generate/generate.go:toGoCase", "generate/generate.go:generateRepeatedMessageField", "generate/generate.go:generateMessage"]}
{"id": "C45", "title": "Generator panics exactly on unsupported field types", "statement": "Generate panics if and only if a requested file has a message with a non-repeated field whose type is neither one of the sixteen scalar types nor message (i.e. group).", "quantifier": "all generator requests", "why_tests_cant": "All requests.", "anchors": ["generate/generate.go:fieldToGoTypeSimple", "generate/generate.go:generateMessage"]}
{"id": "C46", "title": "StringTree errors are sticky", "statement": "Once the wrapped writer fails, StringTree writes nothing more and Error keeps returning the first error; without failure the output is the concatenation of the arguments' renderings.", "quantifier": "all argument sequences, all writers", "why_tests_cant": "All failure points.", "anchors": ["generate/stringtree.go:StringTree.Write", "generate/stringtree.go:StringTree.Error"]}
{"id": "C47", "title": "Go name conversion", "statement": "toGoCase yields only letters and digits, title-cases the first character and each one following a removed separator, and leaves the others alone; fieldToGoTypeMessage keeps exactly the part after the last dot.", "quantifier": "all strings", "why_tests_cant": "All strings.", "anchors": ["generate/generate.go:toGoCase", "generate/generate.go:fieldToGoTypeMessage"]}
{"id": "C48", "title": "When copies of a message struct are independent", "statement": "For a message without overflow map (all messages up to 65535 bytes, C19): Reset or Decode of a copy into separate memory leaves the original as it was and makes the two structs independent for all later histories; setting an absent field or AppendTo on a copy leaves the original's bytes and fields as they were, and if the buffer has no spare capacity also makes the two independent. The unrestricted claim is refuted: overwriting a field of a copy changes the original, appends to both overwrite each other, and Reset of a copy of a large message empties the overflow map both share.", "quantifier": "all messages, all mutations of a copy", "why_tests_cant": "Depends on capacities and map sharing.", "anchors": ["golden/testzeropb/test.zeropb.go:TestMessage", "zeropb.go:setSingle"]}
{"id": "C49", "title": "sint32 fields with oversized varints, and sint64 fields that became sint32", "statement": "The sint32 getter undoes the zig-zag on 64 bits and then truncates; on a valid message its result is the value protobuf prescribes (truncate to 32 bits, then undo the zig-zag) if and only if bit 32 of the varint is clear; e.g. the varint 2^32 reads as -2^31 instead of 0. So if a field was changed from sint64 to sint32, the value that an older program set is read as what a Go conversion to int32 makes of it, and unchanged if it fits.", "quantifier": "all valid messages, all 64-bit varint values", "why_tests_cant": "Ranges over all 64-bit wire values, of which tests written with a conforming encoder produce only those below 2^32.", "anchors": ["zeropb.go:GetZigZagInt32"]}
{"id": "C50", "title": "How long a returned string or slice stays valid", "statement": "The bytes of a string or slice returned by a getter do not change under: setting an absent field of the same message, AppendTo, a setter of another field that keeps the message length, and any history of calls on messages in other memory. They may change when the field itself or a field in front of it gets a value of another length, or the field one of the same length (refuting immutability of returned Go strings).", "quantifier": "all messages, all views, all calls and histories of calls on other messages", "why_tests_cant": "Depends on the memory layout and on every possible later call; a test sees one layout and one call sequence.", "anchors": ["zeropb.go:GetBytes", "zeropb.go:GetString", "zeropb.go:setSingle", "zeropb.go:appendSingle"]}
{"id": "C51", "title": "Generated message types follow their declaration", "statement": "For every message declaration protobuf admits (field numbers 1..2^29-1, all different, label optional/required/repeated, no group), the generated type has an offset table with one slot more than the largest number, a repeated-field table with exactly the repeated numbers, and for each number exactly the accessors of the declared type calling the runtime functions of that type with that number; so it is an instance of the schema all runtime properties of this list are stated for. Repeated scalar fields get no accessor.", "quantifier": "all valid message descriptors", "why_tests_cant": "Ranges over all schemas; a runtime test covers the two golden schemas.", "anchors": ["generate/generate.go:generateMessage", "generate/generate.go:generateSimpleField", "generate/generate.go:generateMessageField", "generate/generate.go:generateRepeatedMessageField"]}
{"id": "C52", "title": "Names used in a generated file are declared there", "statement": "Every package-level name a generated file refers to is declared in that file if and only if the last component of the type name of each message-typed field is the name of a package-level declaration of the file, in particular if it is a top-level message of the file. The condition is needed: fields of nested or imported message types make the output refer to an undeclared type, and two types with the same last component are confused. The package clause is the proto package verbatim, also if it is dotted and hence no Go package name.", "quantifier": "all file descriptors", "why_tests_cant": "Ranges over all schemas.", "anchors": ["generate/generate.go:fieldToGoTypeMessage", "generate/generate.go:generateFile"]}
{"id": "C53", "title": "When a call allocates", "statement": "A setter, AppendTo, Decode or Reset allocates a byte array exactly when the message it leaves does not fit into the capacity of the storage; otherwise the message stays in that storage. It allocates an overflow map only if the message it leaves is longer than 65535 bytes, and that bound is exact. Hence any history that stays within the capacity of its storage and within 65535 bytes allocates nothing, and so do message accessors and iterators on embedded messages of at most 65535 bytes.", "quantifier": "all heaps, all structs, all calls with all arguments (also arguments inside the message itself), all histories, all capacity choices of append", "why_tests_cant": "A benchmark counts allocations of one call sequence on one message.", "anchors": ["zeropb.go:setSingle", "zeropb.go:appendSingle", "zeropb.go:Decode", "offsets.go:Offsets.Set", "README.md"]}
{"id": "C54", "title": "The encoding is an exact, deterministic function of the calls", "statement": "After any history of setters, AppendTo, Reset and Decode on an empty message, the encoding is the concatenation of the records given by this rule: a setter replaces the last record of its field in place if the shortest encoding of the new record has the same length, else deletes that record and adds the new one at the end; AppendTo adds a record at the end; Reset empties; Decode takes the records of its input. It depends neither on capacities chosen by append, nor on memory behind buffers, nor on map iteration order. Setting each field once gives the shortest encodings of the fields in call order. The encoding is not a function of the contents alone (refutation).", "quantifier": "all schemas, all histories of valid calls, all choices of the runtime", "why_tests_cant": "Ranges over all histories and over choices of the runtime a test cannot control (capacity growth, map order).", "anchors": ["zeropb.go:setSingle", "zeropb.go:appendSingle", "zeropb.go:Decode", "offsets.go:Offsets.Set"]}
{"id": "C55", "title": "Cost of iterating a repeated field", "statement": "Going through all elements of a repeated message field with Next takes, over all calls together, exactly as many rounds of the scanning loop as there are records in the encoded message from the first element of that field on. Decoding a message and then iterating one repeated field therefore looks at each record at most twice.", "quantifier": "all schemas, all readable messages (after any history, also after Decode of any valid encoding), all repeated fields", "why_tests_cant": "A test measures a few messages; the bound ranges over all positions of the elements among all other fields.", "anchors": ["zeropb.go:FindNextField", "zeropb.go:GetRepeatedNonPacked", "golden/testzeropb/test.zeropb.go:Next", "README.md"]}
{"id": "C56", "title": "Debug text of a message", "statement": "WriteText and Text of a TestMessage terminate and produce exactly the text of the fields that are present, in field number order (name=value, then the embedded message in angle brackets, then each element of the repeated field in order), recursing into embedded messages; absent fields produce nothing. If an embedded message cannot be decoded, Text panics with the decoder's error. For a tree of messages built with setters the text is the rendering of the tree. Text does not determine the message (refutation: a string value may look like another field).", "quantifier": "all readable messages, all nesting depths, all trees of messages, all formats of numbers and quoted bytes", "why_tests_cant": "Ranges over all messages and nesting depths.", "anchors": ["golden/testzeropb/string.go:WriteText", "golden/testzeropb/string.go:Text"]}
{"id": "C57", "title": "The compiler plugin as a process", "statement": "If standard input is a decodable request without unsupported field types and the response can be encoded and written, protoc-gen-zeropb writes exactly the encoded response to standard output, nothing to standard error, and exits with 0. Otherwise standard output is empty or a prefix of that response. If it prints nothing to standard error, the whole response has been written. The exit status is 2 exactly if the request has an unsupported field, and 0 otherwise: failures to read, decode, encode or write are not visible in the exit status (refutation of the expectation that a failing plugin exits with non-zero status). protoc-gen-text never writes to standard output.", "quantifier": "all inputs, all behaviours of the operating system and of the protobuf library at the boundary", "why_tests_cant": "Ranges over every input and every I/O failure.", "anchors": ["cmd/protoc-gen-zeropb/main.go:run", "cmd/protoc-gen-zeropb/main.go:main", "cmd/protoc-gen-text/main.go:main"]}
{"id": "C58", "title": "The slice returned by Encode", "statement": "Encode returns the buffer of the struct, not a copy. The bytes of that slice stay as they are through any later history of calls on the struct that set absent fields or append elements, and through any calls whatsoever once Reset or Decode has given the struct other memory. They may change when a present field is set, or when the buffer is reused with Reset (refutations).", "quantifier": "all heaps, all structs, all histories of calls with all arguments (also arguments inside the message), all capacity choices of append", "why_tests_cant": "Whether a call moves the buffer depends on capacities chosen by the runtime; the claim ranges over all histories.", "anchors": ["golden/testzeropb/test.zeropb.go:Encode", "zeropb.go:setSingle", "zeropb.go:appendSingle", "golden/testzeropb/test.zeropb.go:Reset"]}
{"id": "C59", "title": "What a getter reads", "statement": "The getter of a singular field depends on nothing but the bytes of the last record of that field: after any change of the other bytes of the encoded message, of its length or of the memory behind it, it returns the same value; an absent field stays absent whatever happens to the bytes. String, bytes and message accessors show the memory itself: if the bytes of the value are replaced, they return the new ones. The iterator of a repeated field depends on nothing before the first element.", "quantifier": "all schemas, all readable messages, all fields, all changes of the underlying bytes", "why_tests_cant": "Ranges over all ways the shared buffer can be modified.", "anchors": ["zeropb.go:GetUint64", "zeropb.go:GetBytes", "zeropb.go:GetString", "zeropb.go:GetRepeatedNonPacked", "README.md"]}
{"id": "C60", "title": "Agreement with an ordinary protobuf implementation", "statement": "Whatever bytes an ordinary protobuf implementation reads as a struct (in particular everything it writes), zeropb decodes, and its getters, message accessors and iterators find the same struct, recursively. If a zeropb message and an ordinary struct start empty or from the same bytes and then undergo the same assignments (scalars, embedded messages, elements, each built the same way), the ordinary implementation reads zeropb's encoding as exactly that struct. Exception: a singular message field encoded in several pieces, which an ordinary implementation merges; zeropb reads the last piece only, and SetMessage replaces the last piece only.", "quantifier": "all families of message types (recursive ones included), all structs, all encodings of them in any record order, all histories of calls, all nesting depths", "why_tests_cant": "rand_test.go compares the two implementations on a few random messages; the claim is about all messages, encoders and histories.", "anchors": ["rand_test.go:TestRandDecode", "rand_test.go:TestRandEncode", "rand_test.go:TestRandMutations", "golden/testzeropb/test.zeropb.go:Decode", "golden/testzeropb/test.zeropb.go:Encode", "zeropb.go:Decode"]}
{"id": "C61", "title": "Goroutines that follow the ownership rule do not affect each other", "statement": "Goroutines may share messages as long as each one changes only messages it owns, and embeds or appends only those and messages nobody changes. Then in every schedule of the calls each goroutine gets what it gets when it runs alone, returns iff it returns alone, and shared messages keep their struct, every byte of their buffer and their overflow map at every moment between calls, so a reader is undisturbed even in the middle of a call. Likewise any number of goroutines may Decode overlapping slices of the same memory into structs of their own (which is what message accessors and iterators do): no byte of it is written, and each gets what it gets alone.", "quantifier": "all numbers of goroutines and messages, all schedules of calls, all ownership assignments", "why_tests_cant": "All schedules.", "anchors": ["zeropb.go:Decode", "zeropb.go:GetBytes", "zeropb.go:setSingle", "zeropb.go:appendSingle", "golden/testzeropb/test.zeropb.go"]}
{"id": "C62", "title": "The committed Go source of the runtime computes exactly what the model computes", "statement": "The text of offsets.go and zeropb.go, tokenized, is the printed form of syntax trees; run by an interpreter for that subset of Go, every exported function (getters and setters of all 15 field types, AppendBytes, GetRepeatedNonPacked, FindNextField, Decode, Offsets.Get/Set/Clear) returns the values, changes the message and memory, and panics, exactly as the model functions all other properties are proved about. In particular a setter followed by the getter gives the value back at the level of the source.", "quantifier": "all memories, messages, field numbers, values, arguments in memory or not, runtime choices (append growth, map order)", "why_tests_cant": "It quantifies over all program states; it is the link between the text of the files and every other theorem.", "anchors": ["offsets.go", "zeropb.go"]}
{"id": "C63", "title": "Generated code does what the simple record does, from its text on", "statement": "For every .proto file whose names give Go identifiers and no clashes, the text of the generated file lexes to known syntax trees, and running those trees together with the source of the runtime gives: Encode, Decode, Reset and every getter, setter, AppendTo, iterator and Next do exactly what the model says to memory, and panic exactly when it does. Hence after any sequence of calls of the generated methods on a struct that was zero, the getters return what a simple record holds, message getters report presence and decode exactly the bytes stored, and iterators yield exactly the appended elements in order and then stop.", "quantifier": "all requests and .proto files, all packages of generated files, all states of memory, all sequences of method calls and arguments, all runtime choices", "why_tests_cant": "Golden tests compare the generated text for two files, and the generated tests run a few calls of one message type; the claim is about every schema and every history of calls.", "anchors": ["generate/generate.go:Generate", "generate/generate.go:generateMessage", "golden/testzeropb/test.zeropb.go", "zeropb.go", "offsets.go"]}
{"id": "C64", "title": "The source of the generator and of the plugins computes the model", "statement": "The syntax trees of generate.go, stringtree.go, the descriptor.pb.go declarations they use and both cmd/*/main.go are those of the committed text, token by token, and running them gives: NewStringTree, Write and Error print exactly what the tree specification says to any io.Writer, with its errors and panics; Generate(req) returns exactly the files of the specification (C43), leaves everything it was given unchanged, and panics exactly for requests with a field of an unsupported type; the text in the files is token by token the program that C63 is about; and the two plugin processes write to standard output and standard error, and exit, exactly as the process specification (C57) says.", "quantifier": "all requests, all writers and Write arguments, any number of Write calls, all inputs and failures of the operating system and the protobuf library, all states of memory", "why_tests_cant": "Golden tests run the generator on two files; no test covers write errors, panics, other requests, or the plugins as processes.", "anchors": ["generate/generate.go:Generate", "generate/generate.go:generateFile", "generate/generate.go:generateMessage", "generate/stringtree.go:StringTree.Write", "cmd/protoc-gen-zeropb/main.go:run", "cmd/protoc-gen-text/main.go:run"]}
{"id": "C65", "title": "From the .proto file to the behaviour of the program", "statement": "If the plugin is run on a request for files that form a Go package (identifiers, no name twice, no groups, message types among the files), and reading, the protobuf library and writing work, its process writes exactly the encoded response and exits with status 0, and the files in that response are a program such that, for every message of the files, after any sequence of calls of its methods on a struct that was zero: each scalar getter returns the value assigned last or the default, each message getter reports presence and decodes exactly the bytes assigned last, each iterator yields exactly the appended elements in order and stops, Encode returns a message in the wire format with exactly these values, and every further call succeeds unless the message grows beyond the maximal length.", "quantifier": "all requests and descriptors, all packages of such files, all messages and fields, all sequences of calls and arguments, all states of memory and runtime choices", "why_tests_cant": "Tests run one generated file for one message type with a few calls; nothing connects the descriptor, the plugin process, the text it writes and the behaviour of that text for other inputs.", "anchors": ["cmd/protoc-gen-zeropb/main.go:run", "generate/generate.go:Generate", "generate/generate.go:generateMessage", "zeropb.go", "offsets.go"]}
{"id": "C66", "title": "Programs with many messages, views and iterators", "statement": "In a program that uses any number of structs of the generated types, some with memory of their own and some views (filled by a message getter, an iterator or Decode from bytes of another struct), and that obeys three rules - it does not set fields of a view, it does not give a struct memory that another struct has, and it does not use views of a struct or iterators over it after changing that struct - every struct shows, at every moment, exactly the values assigned to it, and every iterator yields exactly the elements it has not yielded yet, in order, then stops; getters and iterators fill the struct they are given with nil error when the bytes are a valid message; a struct that is stored in a field (or appended) and read back into another struct comes back field by field. The rule about memory is needed: two structs decoded from adjacent parts of one buffer disturb each other.", "quantifier": "all compilable files, all interleavings of calls on any number of structs and iterators, all values, all other actions of the program that leave the memory of the structs alone", "why_tests_cant": "Interference between messages depends on the whole history of which slices share arrays, offset maps and capacities; tests try a few programs with one or two messages.", "anchors": ["zeropb.go:GetBytes, SetBytes, AppendBytes, Decode, FindNextField", "generate/generate.go:templates", "golden/testzeropb/test.zeropb.go"]}
{"id": "C67", "title": "Goroutines do not race, access by access", "statement": "Any number of goroutines run code that makes structs and buffers, calls methods of generated types, reads and writes bytes, and decides from everything it has seen what to do next. Every location that exists when they start (a byte of a buffer, an entry of an offset array, a slice header, an offset map, an iterator variable) belongs to one goroutine or is shared. A goroutine calls setters only on structs whose fields, bytes and map are its own, fills (Reset, Decode, message getters, Next) only structs of its own, and reads, besides, only what is shared. Then, for every order of the single memory accesses that the Go source of the generated methods and of package zeropb makes, there is never a moment at which two goroutines are about to access the same location and one of them to write it; no goroutine gets stuck or panics; each makes a number of accesses that does not depend on the order, ends with exactly the result it has when it runs alone, and sees the memory it may read as if it were alone. In particular any number of goroutines may read the same messages with getters, Encode, iterators and Decode into structs of their own, and after a program that obeyed the rules of C66 every message may be handed, with its views, to a goroutine of its own.", "quantifier": "all compilable files, all numbers of goroutines and all their (adaptive) programs, all ownership assignments, all interleavings of single memory accesses, all initial memories", "why_tests_cant": "A data race shows itself only in some interleavings of single memory accesses; a race detector reports only races of the schedules that happen to be run.", "anchors": ["zeropb.go:Decode, GetBytes, FindNextField, SetBytes, AppendBytes, setSingle, appendSingle", "offsets.go:WrapOffsets, Get, Set, Clear", "generate/generate.go:templates"]}
{"id": "C68", "title": "string.go and internals.go, run from their source, show the message", "statement": "The methods Text and WriteText of golden/testzeropb/string.go, run from their Go source on top of the source of the generated code and of package zeropb, write or return exactly the text of the message: name=value for each scalar field that occurs, in order of field numbers, then the embedded message, then each repeated message, recursively. They write to no other writer and leave every message, buffer, map and iterator that existed as it was. If an embedded message at any depth cannot be decoded, they panic with the decoder's error, WriteText having written the text up to it. After any run of generated methods the text is that of what the calls put in. Offsets() of both internals.go files returns the index of the message it is called on; wrapped, it tells for every declared field number whether the field occurs. The hand-written files declare nothing that the generated files of their package declare.", "quantifier": "all structs in all memories, all messages and nestings, all writers, all histories of generated method calls, all field numbers", "why_tests_cant": "The sixteen blocks, two levels of panics and the recursion depend on the contents of the message and of all messages embedded in it; tests print a few messages.", "anchors": ["golden/testzeropb/string.go:Text, WriteText", "golden/testzeropb/internals.go:Offsets", "golden/raftzeropb/internals.go:Offsets"]}
{"id": "C69", "title": "The generated package compiles, exactly under five conditions on the .proto files", "statement": "For all .proto files of one package whose names give Go identifiers that shadow nothing generated code uses, the files the plugin writes are accepted by a Go compiler exactly if: every file has at least one message; no message is named init (or main in package main); no Go name is declared twice; every message type that is used as a field type is one of the messages of the files; no two repeated fields of a message have the same number. Otherwise the plugin still reports success and the output does not compile (a file without messages imports zeropb and does not use it, for example).", "quantifier": "all sets of .proto files, all message and field names, numbers, labels and types", "why_tests_cant": "Golden tests compile two schemas; whether every name resolves, every argument has the type the runtime function wants and every import is used depends on all schemas.", "anchors": ["generate/generate.go:Generate, file, message, fieldSingle, fieldRepeated, toGoCase, fieldToGoTypeSimple, fieldToGoTypeMessage", "zeropb.go:signatures of exported functions", "offsets.go:WrapOffsets, Clear"]}
{"id": "C70", "title": "Reusing one buffer: what repeated encoding allocates", "statement": "A round is m.Reset(b) followed by setter and AppendTo calls whose arguments are apart from the message. A round allocates a byte array exactly when the message gets longer than cap(b) at some point of the round, and at most one overflow map, none if the struct already has one; otherwise the result lies in b. If each round passes the previous result, m.Reset(m.Encode()[:0]), then a round allocates an array only if its message gets longer than in every earlier round; all rounds, and indeed all calls ever made on one struct variable including Decode, allocate at most one overflow map together; and if every round makes the same calls, then from the second round on nothing is allocated and all rounds produce the same bytes, however often other code runs in between.", "quantifier": "every schema, every number of rounds, every sequence of valid setter/append calls, every initial state of the struct and of memory, every choice of the runtime (slice growth, map order), any other code between the calls that leaves the message alone", "why_tests_cant": "The benchmarks run one fixed workload and only report an average allocation count; the claim is about every workload, every growth policy of the runtime and every number of rounds.", "anchors": ["bench_test.go:320-540", "zeropb.go:setSingle", "zeropb.go:appendSingle", "offsets.go:Clear", "offsets.go:Set", "golden/testzeropb/test.zeropb.go:Reset"]}
{"id": "C71", "title": "A method reads only the bytes it needs", "statement": "The memory accesses of generated methods, one after the other. A scalar getter reads the reference to the buffer, one entry of the offsets (and the overflow map if the value lies behind the first 65535 bytes), and the bytes of its own value: a number entirely, of a string or bytes value only the length, so the content is never touched. If the field is absent it reads no byte. In all it makes at most 14 accesses and reads at most 10 bytes, however long the message is. Decode reads of each record the tag and, of the payload, a varint or the length, and jumps over fixed-size numbers, strings, bytes and embedded messages. The getter of a message field reads the length of the value and then what Decode of the value reads. The getter of a repeated field reads no byte; Next reads the length of the element, skims the records behind it up to the tag of the next element, and decodes the element. Encode reads the reference to the buffer and nothing else; Reset reads no byte. None of them writes a byte.", "quantifier": "every compilable set of proto files, every message, every message type and field, every state of a struct reached by any run of the program, every valid encoding (minimal or not), every position in memory, every choice of the runtime", "why_tests_cant": "Tests see results, not memory accesses; a getter that read the whole message, or a Decode that scanned string contents, would return the same values in every test.", "anchors": ["README.md", "zeropb.go:Decode", "zeropb.go:fieldDataSize", "zeropb.go:FindNextField", "zeropb.go:GetString", "zeropb.go:GetBytes", "zeropb.go:GetRepeatedNonPacked", "offsets.go:Get", "golden/testzeropb/test.zeropb.go"]}
{"id": "C72", "title": "A setter writes only the bytes it needs", "statement": "The memory accesses of generated setters, one after the other. A setter that replaces a value by one whose encoding has the same length writes exactly the bytes of the old value, and nothing else: no other byte of the message or of memory, no offset, no reference; of the message it reads only the length of the old value (for a varint the old value); besides that it reads the bytes of its argument; for scalar fields it allocates nothing. A setter of a field the message does not have, and AppendTo, write no old byte of the message, only bytes behind its end within the capacity of the buffer; if the capacity suffices they write exactly the bytes of the new record directly behind the message and read only the argument, and the buffer stays where it is. A setter that replaces a value by one of another length neither writes nor (if the capacity suffices) reads a byte before the old record; if the capacity suffices it writes exactly the bytes from the start of the old record to the end of the new message and reads the length of the old value, the records behind the old one, and the argument. None of these calls, with an argument outside the buffer, fails as long as the message stays below the maximal length of a slice.", "quantifier": "every compilable set of proto files, every message type and field, every state of a struct reached by any run of the program, every value of every type, every place of the argument in memory (also inside the message itself), every capacity, every choice of the runtime", "why_tests_cant": "Tests see the message after the call. A setter that rewrote the whole message, or restored bytes it had overwritten for a moment, would leave the same message; that no other byte is touched matters to other slices and other goroutines that share the array, and must hold for every message.", "anchors": ["zeropb.go:setSingle", "zeropb.go:SetBool", "zeropb.go:SetString", "zeropb.go:SetBytes", "zeropb.go:AppendBytes", "zeropb.go:fieldDataSize", "offsets.go:Set", "golden/testzeropb/test.zeropb.go"]}
{"id": "C73", "title": "Goroutines may use different fields of the same struct", "statement": "Several goroutines use the same struct at the same time, without locks. Every scalar field belongs to one goroutine, or is only read. A goroutine gets fields of its own and fields that are only read, and sets its own fields to values whose encoding has the length of the old one, and decides from what it has seen what to do next. Then in every interleaving of the individual memory accesses there is no data race; every goroutine gets the results that it gets when it runs alone; and when all are done, the memory is exactly the memory after the same goroutines have run one after the other, in any order, and the struct is again one to which all theorems about sequential programs apply. Both conditions are needed: if one goroutine sets a field while another one gets the same field, or one sets a field to a value of another length (or a field that was not there) while another one gets any field, some interleaving has a data race.", "quantifier": "every compilable set of proto files, every message type, every struct reached by any run of the program, every number of goroutines, every assignment of fields to goroutines, every adaptive sequence of calls, every interleaving of memory accesses", "why_tests_cant": "The number of interleavings is unbounded and the race detector sees only those that happen; that a setter does not touch neighbouring fields or the offsets, not even for a moment, is not visible in any result.", "anchors": ["zeropb.go:setSingle", "zeropb.go:GetString", "zeropb.go:SetInt32", "offsets.go:Get", "golden/testzeropb/test.zeropb.go"]}
{"id": "C74", "title": "The cost of a setter", "statement": "The number of memory accesses of generated setters: every read or write of one byte, of one entry of the offsets or of the header of a slice counts, and so does every allocation. A setter that replaces a value by one whose encoding has the same length makes at most 3 accesses per byte of the new value plus 6 (plus, if a message is passed by value, the accesses to copy it): neither the length of the message nor the number of fields matters. The same holds, with 2 per byte of the value, 1 per byte of the tag and a constant, for setting a field the message does not have and for AppendTo, if the capacity of the buffer suffices. Replacing a value by one of another length, if the capacity suffices, costs in addition 2 accesses per byte behind the old record and 10 per field of the type. In every case, also if the buffer has to grow, a setter makes at most 5 accesses per byte of the message, 4 per byte of the value, 10 per field of the type, and 68; AppendTo at most 3 per byte of the message and 4 per byte of the element, and 104.", "quantifier": "every compilable set of proto files, every message type and field, every state of a struct reached by any run of the program, every value, every place of the argument, every capacity, every choice of the runtime (growth of slices, order of maps)", "why_tests_cant": "A benchmark measures some messages on one machine; that no message, field layout or offset map makes a setter look at more than this holds for all of them only by proof.", "anchors": ["zeropb.go:setSingle", "zeropb.go:appendSingle", "offsets.go:Get", "offsets.go:Set", "golden/testzeropb/test.zeropb.go"]}
{"id": "C75", "title": "A struct that failed to decode hurts nobody, and can be used again", "statement": "Take any program that uses any number of structs of the generated types: it declares them, sets fields, appends to repeated fields, decodes, resets, stores structs in fields of other structs, reads message fields into structs, iterates over repeated fields - and, besides, gives bytes it knows nothing about to Decode, to the getter of a message field or to Next, and goes on after the call has returned, with an error or without. At every moment: every struct whose contents the program knows (it was not decoded into since from unknown bytes, nor is it a view of such a struct) reads, through every method, as the record of the calls made on it; every iterator over such a struct yields exactly the elements it has not yielded yet. A Decode of unknown bytes that returns, returns nil or io.ErrUnexpectedEOF, writes to no byte slice, and changes nothing that the methods of any other struct return; which of the two is decided by the bytes: complete records give nil, complete records and a part of one give io.ErrUnexpectedEOF. Whatever a struct was decoded from before, a later Decode of a valid message into it returns nil and the struct then shows exactly that message; a later Reset(nil) leaves it empty.", "quantifier": "every descriptor set the generator accepts; every program as described, of any length, with any number of structs and iterators; any bytes in any memory as input to the calls that decode; any growth policy of the runtime", "why_tests_cant": "Programs, interleavings of calls on several structs, and malformed inputs are unbounded; leftovers of a failed Decode (offsets, spilled map entries) would only show in particular later calls.", "anchors": ["zeropb.go:Decode, GetBytes, FindNextField", "offsets.go:Clear, Set", "generate/generate.go:templates", "golden/testzeropb/test.zeropb.go"]}
{"id": "C76", "title": "A program may recover from a panic in Decode", "statement": "Take any program as in C75 that, besides, recovers from the panics of Decode, of the getter of a message field and of Next, and goes on with the memory as it was in the middle of the call that panicked. At every moment: every struct whose contents the program knows reads, through every method, as the record of the calls made on it, and every iterator yields exactly the elements it has not yielded yet. A call that panics has written no byte of any slice that was there before and changed nothing but the struct that was decoded into; a Next that panics has moved the iterator past the element, so a loop that recovers goes on with the one after it. The struct that was decoded into is as good as new: a later Decode of a valid message returns nil and shows that message, a later Reset(nil) leaves it empty. Each of these calls, on any bytes, returns, panics, or never ends; it does panic on a valid message with a field number beyond those of the type.", "quantifier": "every descriptor set the generator accepts; every program as described, of any length, with any number of structs, iterators and recovered panics; any bytes in any memory as input to the calls that decode; any growth policy of the runtime", "why_tests_cant": "A panic can happen after any number of fields have been indexed, at any access; what is left half done would only show in particular later calls, on any of any number of structs.", "anchors": ["zeropb.go:Decode, GetBytes, FindNextField", "offsets.go:Clear, Set", "generate/generate.go:templates", "golden/testzeropb/test.zeropb.go"]}
{"id": "C77", "title": "Reading a struct decoded from unknown bytes harms nothing else", "statement": "Take any program as in C76 that, besides, reads structs whose contents it does not know (decoded from bytes that came from elsewhere, by a call that returned nil, returned an error or panicked) and iterators over any bytes, recovering from the panics of these calls. At every moment every struct whose contents the program does know reads as the record of the calls made on it, and every iterator it relies on yields what it has not yielded yet. A scalar or repeated getter on any struct ends; if it returns, nothing at all has changed; if it panics, nothing that existed has changed. A message getter and Next, if they end, have changed nothing but the struct decoded into and (Next) the iterator; that struct then refers to memory of the struct read, or of the iterator, and to nothing beyond. Every Next that reports an element leaves the iterator strictly shorter, one that reports none leaves everything as it is: a loop over any bytes makes finitely many calls. The struct read is as good as new for a later Decode or Reset.", "quantifier": "every descriptor set the generator accepts; every program as described, of any length, with any number of structs, iterators and recovered panics; any contents of the structs read, any bytes under the iterators; any growth policy of the runtime", "why_tests_cant": "The contents of such a struct may be any table of offsets that some bytes lead to, half written by a panic at any access, over bytes that do not match it; no sample covers these states nor what the other structs show afterwards.", "anchors": ["zeropb.go:GetBool, GetString, GetBytes, GetRepeatedNonPacked, Decode, FindNextField", "offsets.go:Get", "generate/generate.go:templates", "golden/testzeropb/test.zeropb.go"]}
{"id": "C78", "title": "Writing to a struct of unknown contents harms nothing else", "statement": "Take any program as in C77 that, besides, calls SetX and AppendToX on structs whose contents it does not know (decoded from bytes that came from elsewhere, interrupted by a panic, or views of a struct it has given up), provided that no struct whose contents it relies on has the memory of their buffer. Such a call never runs forever: it returns (with no result) or panics. Either way it has changed nothing but that struct, bytes of the array of its buffer within the capacity, and its own overflow map; its buffer afterwards is part of the old one or new memory. At every moment every struct whose contents the program does know reads as the record of the calls made on it, and every iterator it relies on yields what it has not yielded yet. AppendToX does not panic whatever the contents. After a panic of a setter Reset(nil) returns, and the struct is then empty and as good as new.", "quantifier": "every descriptor set the generator accepts; every program as described, of any length, with any number of structs, iterators and recovered panics; any contents of the structs written; any field and argument; any growth policy of the runtime; any order of visiting the map", "why_tests_cant": "The offsets and the buffer of such a struct need not match: the in-place overwrite, the removal of the old field and the adjustment of offsets run on arbitrary positions. That they stay inside the buffer, whatever the positions are, is a statement about all such states; so is what the other structs show afterwards.", "anchors": ["zeropb.go:setSingle, appendSingle", "offsets.go:Get, Set", "generate/generate.go:templates of setters, Reset"]}
{"id": "C79", "title": "Programs that start goroutines, wait for them and go on", "statement": "A program makes calls on any number of messages, starts any number of goroutines, hands out its messages to them (every struct with its views to one goroutine, or to nobody, and then all may read it), waits until all have ended, and goes on with the messages it kept, with those that it gets back, and with those that the goroutines made; it may do so again and again. If the goroutines keep to the rules of C67, and each one, for itself, to those of C66, then for every interleaving of their memory accesses there is no data race; every goroutine has the results it has alone; however they have been interleaved so far, all can come to their end; and after the wait every struct of a goroutine shows exactly the record of the calls that the goroutine made on it, every struct that was not handed out shows what it showed before, and whatever the program does next, all of them go on to be seen as their records.", "quantifier": "all descriptor sets that compile, all programs, all numbers of goroutines and of waits, all ways to hand out structs and iterators, all interleavings of single memory accesses, all behaviours of the Go runtime (growth of slices, order of maps)", "why_tests_cant": "a test runs a few schedules of a few goroutines; the race detector reports only races that happen; that the memory after the wait is one that all later calls handle correctly is a statement about all schedules and all later calls", "anchors": ["zeropb.go: GetBytes, GetRepeatedNonPacked, SetBytes, AppendBytes, Decode, FindNextField", "offsets.go: Offsets", "generate/generate.go: templates", "golden/testzeropb/test.zeropb.go"]}
{"id": "C80", "title": "Goroutines that recover from panics", "statement": "A server starts any number of goroutines; each one calls methods of generated types, some of which panic (on bytes that come from elsewhere, for instance), and recovers from every panic, and goes on. If the goroutines keep to the rules of C67 (change only what belongs to them and what they allocated, read besides only what is shared), where after a panic a goroutine may use what it could use if the call had returned, as far as it could before, then for every interleaving of their memory accesses, however many calls panic and at whatever access: there is no data race; each goroutine ends, with exactly the result that it has when it runs alone; and what it may read is as if it had run alone. In particular goroutines that decode requests from buffers that nobody changes, each request into a new struct, end up with exactly one outcome per request, which depends on the bytes of that request only: nil for a valid message of known fields, io.ErrUnexpectedEOF for one that is cut off, a panic for one with a field number beyond those of the type.", "quantifier": "all descriptor sets that compile, all memory states, all numbers of goroutines and all programs that they run, all bytes of requests (on which Decode ends), all interleavings of single memory accesses, all points at which calls panic, all behaviours of the Go runtime (growth of slices, order of maps)", "why_tests_cant": "a test runs a few schedules and panics at a few points; that a call that was abandoned in the middle has written nothing that another goroutine reads, and left nothing behind that makes a later call of the same goroutine race, is a statement about all points and all schedules", "anchors": ["zeropb.go: GetBytes, GetRepeatedNonPacked, SetBytes, AppendBytes, Decode, FindNextField", "offsets.go: Offsets", "generate/generate.go: templates", "golden/testzeropb/test.zeropb.go"]}
{"id": "C81", "title": "Programs that recover from panics, start goroutines that do the same, and wait for them", "statement": "A program calls methods of generated types, on structs of known contents and on structs that it decoded from bytes that came from elsewhere, and recovers from panics. It hands out its structs to goroutines, which also decode such bytes and recover from panics; it waits until all goroutines have ended, and goes on; and so on, as often as it likes. Then, for every interleaving of the memory accesses of the goroutines: every goroutine has the results that it has alone; every struct of which a goroutine knew the contents comes back with those contents, every struct of which it knew only the type (because Decode failed or panicked) comes back with that type, and all structs that were not handed out are as they were; on every struct that came back, whatever happened to it, Reset(nil) returns and leaves an empty struct that refers to no bytes and may be used as a new one; and at every later moment every struct of known contents is seen as the record of the calls made on it. However the goroutines have been interleaved, there is a way to go on until all have ended.", "quantifier": "all descriptor sets that compile, all memory states, all programs (sequences of calls, of panics, and of starts of goroutines that are waited for), all numbers of goroutines, all ways to hand out structs such that views go with their struct, all bytes, all interleavings of single memory accesses, all points at which calls panic, all behaviours of the Go runtime", "why_tests_cant": "a test runs a few programs under a few schedules; that a struct in which a panic in another goroutine stopped a Decode half-way is harmless to everything else in the program, after any schedule, and can be recycled, is a statement about all of them", "anchors": ["zeropb.go: GetBytes, GetRepeatedNonPacked, SetBytes, AppendBytes, Decode, FindNextField", "offsets.go: Offsets", "generate/generate.go: templates", "golden/testzeropb/test.zeropb.go"]}
{"id": "C82", "title": "Two versions of a .proto file", "statement": "A program generated from one version of a .proto file encodes a message, however it was built; a program generated from another version decodes it (Decode, a message getter, or Next). If every field number that both versions know has types that protobuf documents as compatible (the same type; bool, int32, int64, uint32, uint64 among each other; sint32 to sint64; fixedN and sfixedN; string and bytes; a message field and bytes; singular and repeated message fields), and no number in the message is higher than all numbers that the receiving version knows, then Decode returns nil and every getter of the receiver returns the value that the sender had set, as the same number, or cut off to the size of the new type as by a cast; of a field that was repeated the last element is seen; fields that only the receiver knows are not set, unless the sender itself passed values on. Values of fields that only the sender knows are kept: if the receiver sets and appends to its own fields, encodes the message again and a program of the first version decodes it, they are as they were. A value with a number higher than all that the receiving version knows makes its Decode panic instead.", "quantifier": "all pairs of descriptor sets that compile, all pairs of message types in them, all histories of both programs, all contents of the message, all field values, all setters and appends in between, all memory states and behaviours of the Go runtime", "why_tests_cant": "a test compares two schemas and a few messages; which changes of a schema are safe is a statement about all pairs of schemas and all messages, and about fields for which the receiver has no code that a test could call", "anchors": ["zeropb.go: Decode, GetBool, GetInt32, GetBytes, SetBytes, AppendBytes", "offsets.go: Offsets", "generate/generate.go: templates", "golden/testzeropb/test.zeropb.go", "golden/test.proto"]}
{"id": "C83", "title": "A message that passes through many programs", "statement": "A message is built by one program and passed on, from program to program, any number of times; every program has its own version of the .proto file, decodes what the one before encoded, may set fields and append to repeated fields that its version knows, and encodes the message again. If, at every step, the version can have evolved (C82) from each version that the message has met, and knows a field number at least as high as any number used, then every Decode returns nil, and every field has, in every program, the last value that was given to its number by any program on the way, whether or not the programs in between have known that number, read as the type that the field has in that program; the default, if no program has given it a value; and a field that is repeated in all versions that have it has the elements that all programs appended, in order. The programs that do not know a field have no effect on it.", "quantifier": "all numbers of programs, all descriptor sets that compile for each of them, all sequences of setter and append calls in each, all memory states and behaviours of the Go runtime", "why_tests_cant": "a test passes a message through a few programs; that nothing is lost whatever the number of programs, their order and their versions needs an induction over the journey", "anchors": ["zeropb.go: Decode, SetBytes, AppendBytes, GetInt32", "generate/generate.go: templates", "golden/testzeropb/test.zeropb.go", "golden/test.proto"]}
{"id": "C84", "title": "The source is read with the precedence of its operators as Go has it", "statement": "Every expression in offsets.go, zeropb.go, generate.go, stringtree.go, the plugin, text.go, string.go, both internals.go, and in every file that can be generated, has one reading under the precedence and associativity rules of Go (five levels of binary operators, left to right, below unary operators, below selectors, indices, slices and calls), and that reading is the one whose meaning the other properties are proved of. So which operand belongs to which operator (the tag fieldID<<3|typ, the end offset plus length, *o.m and (*o.m)[fieldID], a - b + c) is settled by the text of the source, not by whoever transcribed it.", "quantifier": "all expressions of these files, all ways to group their tokens; all declarations of generated files with identifiers as names and field numbers that are not negative", "why_tests_cant": "a test of a few values does not tell a - b + c from a - (b + c) where c is zero; and that no other grouping of the same tokens is allowed is a claim about all trees", "anchors": ["zeropb.go: SetBytes, AppendBytes, Decode, GetBytes, FindNextField, fieldDataSize", "offsets.go: Get, Set, Clear", "generate/generate.go", "generate/stringtree.go", "golden/testzeropb/string.go", "golden/testzeropb/test.zeropb.go"]}
{"id": "C85", "title": "Which changes of the .proto files keep the Go API", "statement": "The types and methods of a generated package are those of its messages: for each message a type with Encode, Decode and Reset; for each singular scalar, string or bytes field a getter and a setter of its Go type; for each singular message field a getter by pointer and a setter; for each repeated message field an iterator type with Next, a getter of the iterator and an AppendTo; nothing else. A new version of the .proto files provides every type and method of the old one, with the same parameter and result types, if every message is kept by name and every field with accessors is kept with its Go name and Go type (numbers, order and encoding may change); and, where no name is declared twice, only if. If messages and fields are only added, every old method is in the new package word for word.", "quantifier": "all pairs of versions of the .proto files (requests, descriptors), any number of files, messages and fields; for the output, all pairs of requests for which generate succeeds", "why_tests_cant": "a test compiles one caller against two given versions; which changes keep all callers compiling is a claim about all pairs of schemas, and that a condition is necessary is not seen by a test", "anchors": ["generate/generate.go: generateMessage, generateSimpleField, generateMessageField, generateRepeatedMessageField", "golden/testzeropb/test.zeropb.go"]}
{"id": "C86", "title": "The plugin from bytes to bytes", "statement": "The bytes on the plugin's standard input are at most one request, by the field numbers and types of the descriptor messages and the rules of protobuf (the last value of a singular field, skipped unknown fields and wrong wire types, 32-bit enums), and every request has such bytes. If the protobuf library reads and writes as these rules say, then: a plugin that ends with status 0 and nothing on standard error has written a response that says exactly the generated files for the request that its input says, in order; two inputs that are the same but for what the plugin does not use (comments, options, services, enums, nested types, JSON names, default values, syntax, imports, parameter, compiler version, unknown fields, longer varints), at any level, give the same standard output, standard error and exit status; and from the bytes protoc sends to the methods of the generated package, nothing is lost: the methods show the simple record.", "quantifier": "all byte strings, all requests and responses, all libraries that satisfy the rules (and may fail), all runs of the generated package", "why_tests_cant": "tests use the bytes of one protoc version for two schemas; that no byte of the unused parts has an effect is a claim about all pairs of inputs", "anchors": ["generate/descriptor.pb.go: FileDescriptorProto, DescriptorProto, FieldDescriptorProto", "generate/plugin.pb.go: CodeGeneratorRequest, CodeGeneratorResponse, CodeGeneratorResponse_File", "cmd/protoc-gen-zeropb/main.go: main, run"]}
