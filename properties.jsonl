{"id": "C01", "title": "Encapsulation frames survive the wire", "statement": "A message handed to the transport as one or more pieces is received by a peer using the same framing as exactly one frame: same command, same session handle, same context, and a payload equal to the concatenation of the pieces, with every following byte of the stream left unread for the next frame.", "quantifier": "for every command, session, context, every list of payload pieces whose total size fits the 16-bit length field, and every byte sequence that follows in the stream", "why_tests_cant": "the payload lengths, contents and stream positions are unbounded; a test samples a few frames", "anchors": ["sendreceive.go:sendMsgBuild", "sendreceive.go:recvData", "server.go:serve", "messages.go:msgEIPHeader"]}
{"id": "C02", "title": "Back-to-back frames never bleed into each other", "statement": "Reading n frames from a stream that contains the encodings of n messages one after another returns those n messages in order and leaves nothing unread; the payload of one message can never be taken for part of another.", "quantifier": "for every finite sequence of messages, by induction on the sequence", "why_tests_cant": "the number of messages and their contents are unbounded", "anchors": ["sendreceive.go:sendMsgBuild", "sendreceive.go:recvData"]}
{"id": "C03", "title": "CIP item lists round-trip", "statement": "Serialising a list of CIP items and parsing the result gives back the same number of items with the same type codes and the same data, in order, with the read cursor at the start of each.", "quantifier": "for every list of at most 65535 items each with at most 65535 bytes of data", "why_tests_cant": "item counts and data lengths are unbounded lists", "anchors": ["items.go:serializeItems", "items.go:readItems", "items.go:CIPItem"]}
{"id": "C04", "title": "Parsing an item list from hostile bytes is safe and exact", "statement": "Parsing any byte sequence as an item list either reports an error or returns items whose total encoded size is exactly what was consumed; the returned data is a verbatim sub-range of the input and nothing past the declared lengths is touched.", "quantifier": "for every byte sequence", "why_tests_cant": "an attacker controls the bytes; fuzzing only samples them", "anchors": ["items.go:readItems", "items.go:CIPItem.Read"]}
{"id": "C05", "title": "Logical segments decode to what was encoded", "statement": "Encoding a class, instance or attribute number as a path segment and decoding it yields the same number and leaves the rest of the path untouched.", "quantifier": "for every 16-bit class and attribute number, every 32-bit instance number and every trailing byte sequence", "why_tests_cant": "2^32 instance numbers times arbitrary trailing data", "anchors": ["cip_definitions.go:CIPClass", "cip_definitions.go:CIPInstance", "cip_definitions.go:CIPAttribute"]}
{"id": "C06", "title": "Request paths are whole words and the announced word count is right", "statement": "Every path built from class, instance, element and attribute segments has an even number of bytes, and the word count put on the wire equals half of the number of path bytes actually sent, whether it is computed from the declared segment lengths or from the bytes themselves.", "quantifier": "for every sequence of segments with any numeric values such that the path fits in 255 words", "why_tests_cant": "boundary values of three different widths combined in arbitrary sequences", "anchors": ["cip_definitions.go:CIPElement.Len", "cip_definitions.go:CIPInstance.Len", "getattr.go:GetAttrSingle", "getattr.go:GenericCIPMessage", "getattr.go:GetAttrList"]}
{"id": "C07", "title": "Element segments identify the element", "statement": "Two different element numbers are encoded as two different path segments and a decoder that follows the CIP segment table recovers the number from its encoding.", "quantifier": "for every 32-bit element number", "why_tests_cant": "the interesting values are the ones at and beyond the width boundaries; 2^32 of them", "anchors": ["cip_definitions.go:CIPElement.Bytes"]}
{"id": "C08", "title": "A tag path that is sent arrives as the same tag path", "statement": "A tag name with array indices and member names, converted to a request path by the client and parsed back by the server, is the same tag name (lower-cased), and the bytes that follow the path are left for the rest of the request.", "quantifier": "for every well-formed tag path: non-empty member names of 1..255 characters that are not numbers, up to any number of indices each below 65536, any nesting depth", "why_tests_cant": "names, depth, number of indices and index values are unbounded", "anchors": ["ioi.go:newIOI", "ioi.go:marshalIOIPart", "ioi.go:getTagFromPath", "ioi.go:getAsciiTagPart"]}
{"id": "C09", "title": "Different tags have different request paths", "statement": "Two different well-formed tag paths (compared without regard to case) never produce the same request path bytes.", "quantifier": "for every pair of well-formed tag paths, including indices needing 8, 16 and 32 bits", "why_tests_cant": "a pair of unbounded strings", "anchors": ["ioi.go:newIOI", "ioi.go:marshalIOIPart"]}
{"id": "C10", "title": "Tag addressing ignores letter case and past requests", "statement": "The request path for a tag does not depend on the letter case of the tag name nor on which other tags were addressed before: resolving the same name at any later time with the same controller tag database gives the same bytes.", "quantifier": "for every tag name, every case variant of it and every sequence of earlier lookups with any data types", "why_tests_cant": "a history property over a memo table", "anchors": ["ioi.go:newIOI", "client.go:Client.ioi_cache"]}
{"id": "C11", "title": "Symbolic request paths are well-formed for the controller", "statement": "The request path produced for any tag is an even number of bytes and is a sequence of complete symbolic and element segments whose length bytes match the name bytes that follow.", "quantifier": "for every tag path string the client accepts with name parts up to 255 bytes", "why_tests_cant": "all strings", "anchors": ["ioi.go:newIOI", "ioi.go:marshalIOIPart"]}
{"id": "C12", "title": "Bit addressing returns the addressed bit", "statement": "Asking for bit n of an integer tag returns the truth value of bit n of the two's-complement value read from the controller; a bit number outside the width of the type is reported as an error rather than a value.", "quantifier": "for every integer type, value and bit number", "why_tests_cant": "2^64 values times the bit numbers of eight types", "anchors": ["types.go:getBit", "ioi.go:newIOI", "read.go:Read_single"]}
{"id": "C13", "title": "Atomic values survive encode/decode", "statement": "A value of any atomic Go type written to an item and read back with the CIP type that the library assigns to it is the same value, and exactly as many bytes are consumed as the size the library reports for that type.", "quantifier": "for every supported atomic type and every value of it (floating point as bit patterns), and any following bytes", "why_tests_cant": "2^64 values per type", "anchors": ["types.go:GoVarToCIPType", "types.go:readValue", "types.go:CIPType.Size", "items.go:Serialize"]}
{"id": "C14", "title": "Boolean arrays unpack bit by bit", "statement": "Reading a []bool of 32*k elements sets element i to bit (i mod 32) of the (i div 32)-th 32-bit word received, and lengths that are not a multiple of 32 are rejected.", "quantifier": "for every number of words and every word content", "why_tests_cant": "unbounded arrays of 32-bit words", "anchors": ["read.go:Read"]}
{"id": "C15", "title": "Fixed-capacity string writes never grow or corrupt the frame", "statement": "A Go string placed in a request occupies the fixed STRING footprint whatever its length, its length field never exceeds the number of data bytes that follow, and a string that fits is recovered exactly.", "quantifier": "for every string length and content", "why_tests_cant": "all strings, especially those around and over capacity", "anchors": ["items.go:Serialize", "types.go:readValue", "server_connected.go:cipStringPacker", "server_connected.go:parseWriteValues"]}
{"id": "C16", "title": "Structures survive pack and unpack", "statement": "Packing a structure into controller layout and unpacking the bytes into a structure of the same shape yields an equal structure.", "quantifier": "for every structure shape built from the supported scalar types, booleans (packed or not), fixed arrays and nested structures, and every value of that shape", "why_tests_cant": "infinitely many shapes times values", "anchors": ["pack.go:Pack", "pack.go:Unpack", "pack.go:Align"]}
{"id": "C17", "title": "Packed fields are naturally aligned", "statement": "In the packed image every scalar field starts at an offset, relative to its own structure, that is a multiple of its size, fields do not overlap, and padding bytes are zero.", "quantifier": "for every structure shape and value", "why_tests_cant": "infinitely many shapes", "anchors": ["pack.go:Pack", "pack.go:Align"]}
{"id": "C18", "title": "Booleans share a byte correctly", "statement": "Consecutive booleans of a structure are stored least significant bit first, eight to a byte, and a boolean marked nopack or any following non-boolean field starts a fresh byte; unpacking reads exactly the same bits.", "quantifier": "for every run length of booleans with any values and any positions of nopack marks", "why_tests_cant": "unbounded runs", "anchors": ["pack.go:Pack", "pack.go:Unpack"]}
{"id": "C19", "title": "Built-in structured types keep every status bit", "statement": "Packing a TIMER, COUNTER or CONTROL value and unpacking it returns an equal value, and the image is 12 bytes.", "quantifier": "for every value of the three types including every combination of status bits", "why_tests_cant": "2^64 numeric combinations times status bits", "anchors": ["lgxtypes/timer.go:TIMER", "lgxtypes/counter.go:COUNTER", "lgxtypes/control.go:CONTROL"]}
{"id": "C20", "title": "Fragmented reads reassemble the tag", "statement": "When the controller answers a read with partial-transfer replies, the data returned to the caller is exactly the tag's bytes, whatever fragment sizes the controller chooses, and each request asks for the offset of the first byte not yet received.", "quantifier": "for every tag content and every way of cutting it into non-empty fragments", "why_tests_cant": "all compositions of an unbounded length", "anchors": ["read.go:readFragmented", "read.go:sendFragReadRequest"]}
{"id": "C21", "title": "A multi-tag read returns each tag its own value", "statement": "With a controller that answers every request of a multi-service packet in order, the i-th value returned is the decoded value of the i-th requested tag, for every number of tags and mixture of types.", "quantifier": "for every list of tags, every list of controller values of the requested types", "why_tests_cant": "unbounded lists of heterogeneous replies with an offset table", "anchors": ["read.go:readList", "read.go:ReadMulti", "partialread.go:ReadList"]}
{"id": "C22", "title": "Batching partitions the tag list", "statement": "Reading any number of tags is carried out as a sequence of requests whose tag lists, concatenated, are the original list: no tag is skipped, repeated or reordered, every request carries at least one tag, and the process terminates.", "quantifier": "for every list of tags and every connection size", "why_tests_cant": "unbounded lists, termination", "anchors": ["partialread.go:ReadList", "partialread.go:countIOIsThatFit", "read.go:readList"]}
{"id": "C23", "title": "Batches respect the negotiated size", "statement": "Every multi-tag request built by the batching fits in the negotiated connection size, and the expected reply is likewise within it, unless a single tag alone exceeds it.", "quantifier": "for every list of tags and every connection size", "why_tests_cant": "arithmetic over unbounded lists of variable-length paths", "anchors": ["partialread.go:countIOIsThatFit", "read.go:readList"]}
{"id": "C24", "title": "The multi-service offset table points at the requests", "statement": "In a multi-service request, the k-th offset of the offset table is the position, relative to the request count field, of the first byte of the k-th embedded request, and each embedded request extends to the next offset.", "quantifier": "for every non-empty list of embedded requests whose total size fits in 16 bits", "why_tests_cant": "unbounded lists", "anchors": ["read.go:readList", "write.go:WriteMap", "server_connected.go:connectedMulti"]}
{"id": "C25", "title": "A controller error is never reported as success", "statement": "Whenever the controller's reply carries a non-zero general status other than a partial transfer that is followed up, the client call returns an error and no value.", "quantifier": "for every reply and every client operation that carries a CIP status", "why_tests_cant": "every status code times every operation", "anchors": ["read.go:Read_single", "write.go:write_single", "write.go:WriteMap", "getattr.go:GetAttrSingle", "getattr.go:GetAttrList", "getattr.go:GenericCIPMessage"]}
{"id": "C26", "title": "A malformed reply yields an error, not a crash", "statement": "A reply consisting of arbitrary bytes makes a read, write or attribute request return an error or a value; it never crashes the calling program.", "quantifier": "for every byte sequence received after the encapsulation header", "why_tests_cant": "hostile bytes", "anchors": ["read.go:Read_single", "read.go:readList", "connect.go:parseResponse", "getattr.go:GetAttrSingle"]}
{"id": "C27", "title": "Disconnect always ends disconnected, connect never leaves a half state", "statement": "After any sequence of Connect and Disconnect calls with any outcome of the network steps, the connection state is either connected or disconnected once no call is in progress; a successful Connect leaves it connected, a failed one disconnected, and Disconnect always disconnected.", "quantifier": "for every interleaving of any number of concurrent Connect/Disconnect calls and every success/failure of each network step", "why_tests_cant": "all schedules", "anchors": ["connect.go:startConnect", "connect.go:Connect", "disconnect.go:startDisconnect", "disconnect.go:Disconnect"]}
{"id": "C28", "title": "At most one caller establishes a connection at a time", "statement": "Whatever number of goroutines call Connect concurrently, at most one of them is dialling at any moment and a caller that finds the client connected or connecting does not dial.", "quantifier": "for every number of callers and every schedule", "why_tests_cant": "all schedules", "anchors": ["connect.go:startConnect", "connect.go:Connect"]}
{"id": "C29", "title": "Request/response exchanges do not interleave", "statement": "When several goroutines share a client, the bytes of each request are sent contiguously and the reply handed to a goroutine is the next reply received after its own request was sent.", "quantifier": "for every number of goroutines and every schedule of their requests", "why_tests_cant": "all schedules", "anchors": ["sendreceive.go:send_recv_data"]}
{"id": "C30", "title": "Sequence counts do not repeat within 65536 requests", "statement": "Among any 65536 consecutive requests drawn by any interleaving of goroutines from the sequence generator, all 16-bit sequence counts are different.", "quantifier": "for every starting value (including wrap-around of the 32-bit counter) and every schedule", "why_tests_cant": "4 billion starting points", "anchors": ["client.go:sequencer", "client.go:Client.sequenceNumber"]}
{"id": "C31", "title": "Server connection table reflects opens and closes", "statement": "After any history of connection opens and closes, looking a connection up by identifier finds an open connection exactly if one with that identifier was added and not closed since, and closing one connection does not disturb the others.", "quantifier": "for every history of add/close operations with distinct identifiers", "why_tests_cant": "unbounded histories", "anchors": ["server_connections.go:serverConnectionManager"]}
{"id": "C32", "title": "Tag store: a read returns the last write", "statement": "For the in-memory tag store behind the server, reading a tag returns the value last written to it (names compared without case), whatever writes to other tags happened in between; a tag never written is reported as missing.", "quantifier": "for every history of writes and every tag name", "why_tests_cant": "unbounded histories", "anchors": ["server_router.go:MapTagProvider.TagRead", "server_router.go:MapTagProvider.TagWrite"]}
{"id": "C33", "title": "Tag store: array element access is bounds-checked and local", "statement": "Writing element k of an array tag changes element k and nothing else, an index outside the array is an error that leaves the store unchanged, and reading n elements from k returns exactly elements k..k+n-1 or an error.", "quantifier": "for every array contents, index and count", "why_tests_cant": "unbounded arrays and indices", "anchors": ["server_router.go:MapTagProvider.TagWrite", "server_router.go:MapTagProvider.TagRead", "server_router.go:parseElementTag"]}
{"id": "C34", "title": "Routing is by exact path", "statement": "A request is delivered to the tag provider registered last for exactly the bytes of its path, and to no other; an unregistered path is an error.", "quantifier": "for every sequence of registrations and every path", "why_tests_cant": "unbounded histories", "anchors": ["server_router.go:PathRouter"]}
{"id": "C35", "title": "Client write followed by client read through the server", "statement": "A value written by a client to a gologix server and then read back by a client with the same type is the same value.", "quantifier": "for every tag path, atomic type, element count and value", "why_tests_cant": "composition of two codecs over all values", "anchors": ["server_connected.go:cipConnectedWrite", "server_connected.go:connectedRead", "server_connected.go:parseWriteValues", "read.go:Read_single", "write.go:write_single"]}
{"id": "C36", "title": "The server answers a multi-service packet item by item", "statement": "The reply to a multi-service packet contains exactly one embedded reply per embedded request, in order, and the offset table of the reply points at them.", "quantifier": "for every list of embedded read and write requests", "why_tests_cant": "unbounded lists of requests", "anchors": ["server_connected.go:connectedMulti"]}
{"id": "C37", "title": "A malformed request cannot crash the server", "statement": "Whatever bytes a peer sends in a request, the server answers with an error or closes the connection; it never panics.", "quantifier": "for every byte sequence", "why_tests_cant": "hostile bytes", "anchors": ["server_connected.go", "server_unconnected.go", "ioi.go:getTagFromPath", "server.go"]}
{"id": "C38", "title": "Every reply echoes the request it answers", "statement": "A reply sent by the server carries the request's encapsulation context and session, and its service code is the request's service code with the response bit set.", "quantifier": "for every request service, context and session", "why_tests_cant": "all request codes and contexts", "anchors": ["server.go", "server_connected.go", "services.go:AsResponse"]}
{"id": "C39", "title": "Forward open and forward close are matched", "statement": "A forward open is answered with the connection identifiers the server will use, echoing the originator's serial numbers; a later forward close with the same serial number removes exactly that connection and is acknowledged.", "quantifier": "for every history of opens and closes with distinct serial numbers", "why_tests_cant": "unbounded histories", "anchors": ["server.go:forwardOpen", "server.go:largeForwardOpen", "server.go:forwardClose"]}
{"id": "C40", "title": "Route strings become the route bytes they denote", "statement": "A route written as comma-separated numbers is converted to exactly those bytes, whatever spaces or brackets are used, and a number outside 0..255 or a non-number is rejected without producing a route.", "quantifier": "for every list of numbers and every placement of spaces and brackets", "why_tests_cant": "all strings", "anchors": ["path.go:ParsePath"]}
{"id": "C41", "title": "Path builder concatenates and keeps the first error", "statement": "A path built step by step equals the concatenation of its segments, and once a step fails every later step leaves path and error unchanged.", "quantifier": "for every sequence of builder calls", "why_tests_cant": "unbounded call sequences", "anchors": ["path.go:PathBuilder"]}
{"id": "C42", "title": "Structure type checksum is the CRC of the type string", "statement": "The 16-bit identifier computed for a structure is the CRC-16 (polynomial x^16+x^15+x^2+1, bit-reflected, zero initial value) of its type description string: the bitwise table-free computation agrees with polynomial division for every string, so any single-bit change or any burst of up to 16 bits in the description changes the identifier.", "quantifier": "for every byte string", "why_tests_cant": "all byte strings", "anchors": ["pack.go:TypeEncode", "pack.go:crc16"]}
{"id": "C43", "title": "Data-table tags have unique positions", "statement": "After any history of adding and removing tags of a data table, no two registered tags share the same position in the reply.", "quantifier": "for every history of adds and removes", "why_tests_cant": "unbounded histories", "anchors": ["datatable.go:AddTag", "datatable.go:AddTags", "datatable.go:RemoveTag"]}
{"id": "C44", "title": "Data-table reads give each tag its own bytes", "statement": "Reading a synchronised data table decodes for each tag exactly the bytes the controller sent for that tag, for any mixture of tag sizes and batches.", "quantifier": "for every list of tags grouped into batches and every content", "why_tests_cant": "unbounded lists and batches", "anchors": ["datatable.go:ReadAll", "datatable.go:decodeDataTableValue"]}
{"id": "C45", "title": "Tag groups expand to all members and nothing else", "statement": "Expanding a tag group with array members addresses every element exactly once, in order, with distinct names, and collapsing the individual values gives back arrays of the declared length with each value at its own index.", "quantifier": "for every group definition and every set of values", "why_tests_cant": "unbounded groups", "anchors": ["taggroup.go", "taggroup_readmap.go"]}
{"id": "C46", "title": "Tag listing records every listed tag", "statement": "Parsing the controller's symbol list reply records every listed user tag under its lower-case name with its instance number, type and dimensions, skips exactly the system tags, and continues from where the controller stopped until the list is complete.", "quantifier": "for every list of symbols and every way the controller cuts it into replies", "why_tests_cant": "unbounded lists and page cuts", "anchors": ["listalltags.go:ListAllTags", "listalltags.go:isValidTag", "listsubtags.go:ListSubTags"]}
{"id": "C47", "title": "Symbol type word is decoded by the published bit fields", "statement": "For every 16-bit symbol type, exactly one classification holds: it is a structure with a template number (bit 15 set, bit 12 clear) equal to the low 12 bits, or no template number is reported; atomic is reported exactly when bits 15 and 12 are clear.", "quantifier": "for every 16-bit type word", "why_tests_cant": "finite but exhaustive; tests only sample", "anchors": ["listalltags.go:TagInfo", "listmembers.go:UDTMemberDescriptor.Template_ID"]}
{"id": "C48", "title": "Identity replies round-trip", "statement": "The identity record a gologix server publishes is parsed by a gologix client to the same identity.", "quantifier": "for every identity value with a product name of at most 255 bytes", "why_tests_cant": "all identity values", "anchors": ["server_listidentity.go", "listidentity.go:ParseFromBytes"]}
{"id": "C49", "title": "Service listing parses fixed records", "statement": "A service record is parsed to its version, capability flags and its name without trailing NUL bytes; a record shorter than 20 bytes is an error.", "quantifier": "for every byte sequence", "why_tests_cant": "all byte sequences", "anchors": ["listservices.go:ParseFromBytes"]}
{"id": "C50", "title": "Response bit arithmetic is an involution pair", "statement": "Turning a service code into its response code and back is the identity for every request code, response codes are recognised exactly, and no request code is mistaken for a response.", "quantifier": "for every 8-bit service code", "why_tests_cant": "finite but exhaustive", "anchors": ["services.go:IsResponse", "services.go:AsResponse", "services.go:UnResponse"]}
{"id": "C51", "title": "Project-file values convert without loss", "statement": "A decimal value in range for the declared data type of a tag in a project export is converted to the Go value of that type with the same numeric value.", "quantifier": "for every integer data type and every value in its range", "why_tests_cant": "up to 2^64 values", "anchors": ["l5x/types.go:L5xTypeToGoType"]}
{"id": "C52", "title": "Cyclic I/O data is delivered unchanged", "statement": "The input structure set by the application is what the scanner receives, packed; an output message from the scanner is unpacked from exactly the bytes after the six-byte header, and a shorter message is an error.", "quantifier": "for every input value and every output message", "why_tests_cant": "all messages", "anchors": ["server_io.go:IOProvider", "server_iochannel.go:IOChannelProvider"]}
{"id": "C53", "title": "The program listing is parsed completely", "statement": "Parsing the program list reply yields one entry per listed program with its name and instance number, for any number of programs, and a truncated reply is not silently accepted as complete.", "quantifier": "for every list of programs and every truncation point", "why_tests_cant": "unbounded lists and every truncation point", "anchors": ["listallprograms.go:ListAllPrograms"]}
{"id": "C54", "title": "Map writes send every entry and report failures", "statement": "Writing a map of tags sends one embedded write per entry with the element count and type of its value, and the call fails if the controller rejects any of them.", "quantifier": "for every map of tags to values and every reply", "why_tests_cant": "unbounded maps, every reply", "anchors": ["write.go:WriteMap"]}
{"id": "C55", "title": "No tag name crashes the caller", "statement": "Resolving any string as a tag name gives a request path or an error; it never crashes the calling program.", "quantifier": "for every byte string", "why_tests_cant": "unbounded strings; fuzzing cannot show absence", "anchors": ["ioi.go:newIOI", "ioi.go:marshalIOIPart"]}
{"id": "C56", "title": "A read returns the controller's value", "statement": "Reading a tag into a variable or a slice of a supported type sets it to the value the controller holds, element by element and for every slice length, however the controller splits its reply.", "quantifier": "for every supported type, every value, every slice length and every division of the reply into fragments", "why_tests_cant": "unbounded lengths, all values and all fragmentations", "anchors": ["read.go:Read", "read.go:Read_single", "read.go:readArray", "read.go:read"]}
{"id": "C57", "title": "A multi-tag read returns one value per tag", "statement": "A multi-tag read that succeeds returns exactly as many values as tags were requested, so no value can be attributed to another tag; a reply with more or fewer embedded replies than requests is an error.", "quantifier": "for every tag list and every reply", "why_tests_cant": "all replies and all tag lists, including replies no honest controller sends", "anchors": ["read.go:readList", "read.go:ReadList", "read.go:ReadMap"]}
{"id": "C58", "title": "A write carries the tag, type, element count and value", "statement": "The request of a single write consists of the write service, the tag's path, the type of the value, the number of its elements and exactly the bytes of its elements, for scalars, strings, slices and structures.", "quantifier": "for every tag path, every supported type, every value and every slice length", "why_tests_cant": "unbounded slices and all values", "anchors": ["write.go:Write", "write.go:write_single", "write.go:write_udt"]}
{"id": "C59", "title": "A write to a bit addresses that bit", "statement": "Writing a boolean to an address that ends in a bit number changes that bit of the tag and nothing else; the request differs from a write to the whole tag.", "quantifier": "for every tag path, bit number and boolean", "why_tests_cant": "all paths and bit numbers", "anchors": ["write.go:Write", "write.go:write_single", "ioi.go:newIOI"]}
{"id": "C60", "title": "Replies match requests on a connection", "statement": "As long as every exchange on a connection succeeds, the i-th request sent on it is answered by the i-th reply the device sends on it, whichever goroutines sent the requests.", "quantifier": "for every number of goroutines, every schedule and every sequence of framed replies", "why_tests_cant": "all schedules and all reply sequences", "anchors": ["sendreceive.go:send_recv_data", "sendreceive.go:recvData"]}
{"id": "C61", "title": "A late reply is never handed to another request", "statement": "After an exchange that failed, no goroutine is handed the reply to that exchange's request.", "quantifier": "for every schedule and every timing of replies", "why_tests_cant": "all schedules and timings", "anchors": ["sendreceive.go:send_recv_data", "disconnect.go:Disconnect"]}
{"id": "C62", "title": "Sharing a client does not crash the program", "statement": "No interleaving of Connect, Disconnect, requests and the keep-alive, with any outcome of the network steps, uses a nil connection, closes the cancel channel twice or recurses without end.", "quantifier": "for every number of goroutines, every schedule and every outcome of the network steps", "why_tests_cant": "all schedules", "anchors": ["connect.go:Connect", "connect.go:KeepAlive", "disconnect.go:Disconnect", "sendreceive.go:send_recv_data"]}
{"id": "C63", "title": "No connection is left open", "statement": "Once no call is in progress and the client is disconnected, every connection it has dialled has been closed.", "quantifier": "for every run", "why_tests_cant": "all schedules and outcomes", "anchors": ["connect.go:Connect", "disconnect.go:Disconnect"]}
{"id": "C64", "title": "A stored array is not shared", "statement": "An array in the tag store is changed only by writes to its own tag, and an array handed out by a read does not change afterwards.", "quantifier": "for every history of reads and writes", "why_tests_cant": "all histories", "anchors": ["server_router.go:MapTagProvider.TagRead", "server_router.go:MapTagProvider.TagWrite"]}
{"id": "C65", "title": "A connection is closed only by its originator", "statement": "A forward close request removes only a connection whose serial number, vendor and originator serial number it names.", "quantifier": "for all request sequences from any number of peers", "why_tests_cant": "all sequences and peers", "anchors": ["server.go:forwardClose"]}
{"id": "C66", "title": "A structure description is parsed to its name and members", "statement": "Parsing the template of a structure yields the name of the structure and, for every member in order, its name, type and offset.", "quantifier": "for every structure name and every list of members", "why_tests_cant": "unbounded member lists and all names", "anchors": ["listmembers.go:ListMembers"]}
{"id": "C67", "title": "The service list of a gologix server can be read by a gologix client", "statement": "The reply of a gologix server to a list services request is parsed by a gologix client to the version, capability flags and name the server publishes.", "quantifier": "for every request", "why_tests_cant": "client and server are tested against other peers, not against each other", "anchors": ["server.go:sendListServicesData", "listservices.go:ListServices"]}
{"id": "C68", "title": "Project-file tags load completely", "statement": "Every tag with data of a project export, of the controller or of a program, is in the loaded map under its name, with its value, its structure members or its array elements in order.", "quantifier": "for every export with distinct names", "why_tests_cant": "unbounded lists of tags, programs, members and elements", "anchors": ["l5x/load_tags.go:LoadTags"]}
{"id": "C69", "title": "A refused output message leaves the outputs unchanged", "statement": "When the provider of an I/O connection refuses an output message, the output structure of the application is what it was before.", "quantifier": "for every output structure and every message", "why_tests_cant": "all structure shapes and all cut points", "anchors": ["server_io.go:IOWrite", "pack.go:Unpack"]}
{"id": "C70", "title": "The connection a client opens is the one it uses", "statement": "The open request of a client asks for its route, its size and its numbers. A server that gets it has one more connection, for that route, and the client afterwards addresses exactly that connection.", "quantifier": "for every client configuration, both request forms and every server state", "why_tests_cant": "all routes, sequence numbers, sizes and tables of open connections", "anchors": ["connect.go:newForwardOpenLarge", "connect.go:newForwardOpenStandard", "connect.go:forwardOpen", "server.go:largeForwardOpen", "server.go:forwardOpen"]}
{"id": "C71", "title": "A disconnecting client leaves nothing behind", "statement": "When a client closes, the server removes every connection the client has opened and no other, and acknowledges the request.", "quantifier": "for every client configuration and every server state", "why_tests_cant": "all tables of open connections and all outcomes of the exchanges before", "anchors": ["disconnect.go:Disconnect", "server.go:forwardClose", "server_connections.go:CloseByID"]}
{"id": "C72", "title": "The client works with the size it was granted", "statement": "When Connect succeeds, the size, the serial number and the identifier the client works with are those of the request that was accepted; it falls back to the standard form exactly when the large form was refused, and fails exactly when no form was accepted.", "quantifier": "for every client configuration and every pair of replies", "why_tests_cant": "all sizes and all reply bytes", "anchors": ["connect.go:Connect", "connect.go:forwardOpen", "connect.go:parseResponse"]}
{"id": "C73", "title": "Writing a tagged structure writes every field", "statement": "Writing a structure with tagged fields sends one write for each value in it, at any depth, to the tag of its field followed by the member names and element numbers on the way, with the type and the bytes of the value; no value is left out, merged with another or sent in a packet larger than the connection allows.", "quantifier": "for every structure type, nesting and value", "why_tests_cant": "all nestings of structures and arrays", "anchors": ["write.go:WriteMulti", "udt_write.go:multi_to_dict", "udt_write.go:udt_to_dict", "udt_write.go:WriteMap"]}
{"id": "C74", "title": "Variables bound to data table tags get the values read", "statement": "A successful read of a data table gives every variable bound to a tag, singly or as a tagged structure field or slice element, the value the read reports for that tag, and changes no other variable; a variable of a supported type never makes a read fail that would succeed without it; a failing read changes nothing.", "quantifier": "for every buffer, every set of bindings and every content of the controller's reply", "why_tests_cant": "all combinations of bindings, types and reply bytes", "anchors": ["datatable.go:AddTagRef", "datatable.go:AddTaggedStruct", "datatable.go:setGoVar", "datatable.go:ReadAll"]}
{"id": "C75", "title": "The life of a data table", "statement": "Creating a data table asks the controller once and gives an empty buffer with the number in the reply; closing it asks the controller once to delete exactly that number; afterwards every operation is refused and nothing is sent; a buffer the controller did not delete stays open.", "quantifier": "for every buffer and every reply", "why_tests_cant": "all replies and all orders of operations", "anchors": ["datatable.go:CreateDataTableBuffer", "datatable.go:NewDataTableBuffer", "datatable.go:DeleteDataTableBuffer", "datatable.go:Close"]}
{"id": "C76", "title": "Reading into a tagged structure or a map puts every value in its own place", "statement": "Reading a structure with tagged fields sets every tagged field to the value of its own tag, with the arguments put into the tag name, and leaves the other fields alone; reading a map sets every key to the value of the tag it names and keeps the type of what was there, so the map can be read again.", "quantifier": "for every structure, map and content of the controller", "why_tests_cant": "all combinations of fields, tags, types, batch boundaries and replies", "anchors": ["read.go:ReadMulti", "read.go:ReadMap", "read.go:readList"]}
{"id": "C77", "title": "A reply is taken only for the request it answers", "statement": "A reply is taken for the answer to a request only if it carries the sequence count of the request and the service asked for with the response bit set; any other reply makes the operation fail.", "quantifier": "for every operation, every service and every reply", "why_tests_cant": "all services, sequence counts and reply contents", "anchors": ["getattr.go:GenericCIPMessage", "read.go:Read_single", "write.go:write_single", "getattr.go:GetAttrSingle", "getattr.go:GetAttrList", "read.go:readList"]}
{"id": "C78", "title": "Every reply of the server is one whole frame for the connection and sequence count of the request", "statement": "Everything the server sends on a session is a sequence of encapsulation frames, each of which states in its header the number of bytes that follow; and the answer to a connected request carries the sequence count of that request and the identifier the originator chose for that connection.", "quantifier": "For all server states, all streams of bytes received and all connected requests.", "why_tests_cant": "A reply whose length, sequence count or connection identifier is that of something else is only visible with long values, several connections on one session, or requests in flight together.", "anchors": ["server.go:118-345", "server_connected.go:1-590", "items.go"]}
{"id": "C79", "title": "The server acknowledges only what it did and reports what it could not do", "statement": "A connected read or write is answered with success only if the tag was read or written; a request the server cannot carry out is answered with an error status, changes nothing, and leaves the session usable.", "quantifier": "For all server states, all connected read, write and unknown requests.", "why_tests_cant": "Failing requests have to be combined with every way of failing, and a missing answer looks like a slow server.", "anchors": ["server.go:251-345", "server_connected.go:40-341"]}
{"id": "C80", "title": "The server lists the tags it has", "statement": "A request for the list of symbols on an open connection is answered with every tag of the connection's provider exactly once, in ascending order of names, numbered from 1, with its type; from the instance asked for on and with the attributes asked for; the numbers are the instances through which single tags are read; and gologix's own client reads the list as it is.", "quantifier": "For all providers, all requests for the list, all instance numbers.", "why_tests_cant": "Every set of tags is another list; order, numbering and truncation only show with many tags.", "anchors": ["server.go:428-468", "server_unconnected.go:194-227", "server_unconnected.go:552-575", "server_router.go:251-263", "listalltags.go:115-346"]}
{"id": "C81", "title": "The type description names every member of a structure in order", "statement": "The description computed for a structure is its name followed by the descriptions of its members in order, separated by commas: the Logix name of a number, a byte (SINT) for each run of up to eight booleans, the description of a nested structure, and for an array the description of its elements with the number of elements.", "quantifier": "For all structure types, however nested.", "why_tests_cant": "There are infinitely many structures; the packing of booleans depends on what is around them.", "anchors": ["pack.go:416-514"]}
{"id": "C82", "title": "A change of the controller is noticed", "statement": "The controller's change attributes (1, 2, 3, 4 and 10 of class 0xAC) are read as the controller sends them; two readings match exactly if no attribute differs; an attribute the controller refuses makes the reading fail. A keep-alive that polls the tags lists them once at the beginning and once for every tick at which the attributes differ from those of the tick before, and not otherwise.", "quantifier": "for all attribute values, all statuses, all replies around them and every sequence of ticks", "why_tests_cant": "Tests see one controller that does not change, or one change.", "anchors": ["getattr.go:165-226", "getattr.go:244-316", "connect.go:206-262"]}
{"id": "C83", "title": "Forces and faults are reported as the controller has them", "statement": "The force status and the fault log are read as the controller sends them. Forces are said to be enabled, and to exist, exactly if the controller says so. A fault type is said to be present exactly if the bit with the number of its class is set, and the description of a fault is the one for its class and code.", "quantifier": "for all status words, all logs, all fault types and every class and code", "why_tests_cant": "There are 2^32 fault words and 2^32 pairs of class and code; tests have no faulted controller.", "anchors": ["canned/forces.go:9-41", "canned/faults.go:9-180", "canned/fault_descriptions.go:16-1655"]}
{"id": "C84", "title": "No error is lost when several are put together", "statement": "Asking errors.Is whether one error is inside several put together answers yes exactly if it is one of them or wrapped in one of them, and never crashes; the error that Serve returns contains the error of the loop that failed and those of closing the listeners.", "quantifier": "for all errors nested in any way", "why_tests_cant": "Nesting is unbounded; tests try one error.", "anchors": ["errors.go:72-112", "server.go:97-112"]}
{"id": "C85", "title": "A keep-alive can be cancelled, and started again", "statement": "Cancelling the keep-alive ends every keep-alive of the client and never crashes; without force it is refused while the automatic start is on. After that a new connection or a call of KeepAlive starts it again.", "quantifier": "for every sequence of starts, ticks, failures, cancellations and connections", "why_tests_cant": "Depends on the order of events in several goroutines.", "anchors": ["connect.go:166-168", "connect.go:195-272", "disconnect.go:146-152"]}
{"id": "C86", "title": "A group read gives every tag its value, in its type", "statement": "ReadTagGroup with arguments gives a result that has, under the name of each definition with the arguments filled in, the value of that tag, as many elements as declared, and no other names. The accessors hand out a value of their type as it was read and refuse any other; Uint32 also takes an int32.", "quantifier": "for all definitions, arguments, orders in which the map is visited, splits into requests, and tag values", "why_tests_cant": "The order of a Go map is random and types, counts and names combine without bound.", "anchors": ["taggroup_readmap.go:20-39", "taggroup.go:57-116", "taggroup.go:163-330"]}
{"id": "C87", "title": "The comments of a project export are found under the names they belong to", "statement": "Loading the comments of a project export gives, for every point of a module, every tag and every part of a tag of a structured type, and every rung, the texts the export has for it under its name - the description of the type and of the member after that of the tag - and nothing else.", "quantifier": "For all exports: any modules, types nested to any depth, tags, programs and tasks.", "why_tests_cant": "The recursive walk over types mixes descriptions of tags, types and members; a test sees a few names of one export.", "anchors": ["l5x/load_tags.go:100", "l5x/load_tags.go:194", "l5x/load_tags.go:248", "l5x/schema.go:3982"]}
{"id": "C88", "title": "Reading a structure gives the values the controller holds", "statement": "Read into a pointer to a structure, into a slice of structures and ReadPacked give, for every structure type, the value whose scalars the controller's image holds at their places in the controller's layout, whatever the padding contains; one request with the right element count is sent; a short image, an error status or a tag that is no structure is an error and leaves the destination unchanged; no destination makes the client panic.", "quantifier": "for every structure shape, every value, every previous content of the destination and every reply", "why_tests_cant": "Tests read a few structures of one controller with zero padding; the property quantifies over shapes, values, padding bits and malformed replies.", "anchors": ["read.go:38-373", "pack.go:241-409"]}
{"id": "C89", "title": "The size computed for a structure is what its members occupy", "statement": "UDTDescriptor.Size is, for every description of a structure, the smallest number of bytes that holds all its members: single values, arrays and structures within it.", "quantifier": "for every list of members with any types, counts and offsets", "why_tests_cant": "A test checks a structure or two; which member ends last, and what type codes the template numbers of nested structures happen to look like, is not covered.", "anchors": ["listmembers.go:147-149", "listmembers.go:293-305"]}
{"id": "C90", "title": "The server takes every connection and ends when its listeners do", "statement": "Serve gives every incoming connection exactly one handler, delivers every datagram to the endpoint it is for and to no other, reports an error of either listener to its caller, and leaves no listener open when it returns.", "quantifier": "for every sequence of connections, datagrams and errors of the listeners, and every outcome of opening them", "why_tests_cant": "Tests do not make the listeners fail, and cannot run for ever to see that a call does not return.", "anchors": ["server.go:63-200"]}
{"id": "C91", "title": "Removing a tag of a data table removes this tag", "statement": "RemoveTag asks the controller to remove the first tag of the name, by its position, and takes exactly this tag from the table if and only if the controller agrees; a name that is not there is an error and nothing is sent; a tag the controller has not been told of is simply dropped.", "quantifier": "for every table, name and answer of the controller", "why_tests_cant": "Tests remove a tag of a small table from a controller that agrees; refusals, tags of the same name and tags not sent yet are not covered.", "anchors": ["datatable.go:270-288", "datatable.go:648-673"]}
{"id": "C92", "title": "No reply crashes a listing, data table or structure request", "statement": "Whatever bytes the controller answers, listing identities, services, programs, tags and templates, reading controller properties, forces and faults, all operations on data tables, reading slices and structures and opening a connection return an error or a value; they never crash the calling program.", "quantifier": "for every sequence of replies of arbitrary bytes, every buffer, structure type and template", "why_tests_cant": "all replies of all lengths in every order, including malformed and malicious ones", "anchors": ["listidentity.go:ListIdentity", "listservices.go:ListServices", "listallprograms.go:ListAllPrograms", "listalltags.go:ListAllTags", "listsubtags.go:ListSubTags", "listmembers.go:ListMembers", "datatable.go:ReadAll", "canned/faults.go:GetFaults", "read.go:Read", "connect.go:forwardOpen"]}
{"id": "C93", "title": "The server tells the attributes of its identity", "statement": "A request for an attribute of the identity object (class 1, instance 1), on a connection or outside one, is answered with that attribute as published: numbers little-endian, the name as a SHORT_STRING; a request for all attributes is answered with all seven in order, one for all attributes of the program object with the name; a request for an object or attribute the server does not have is answered with an error status; no such request changes the server or ends the session.", "quantifier": "all attribute maps that describe a device, all connections, sequence counts, objects, attribute numbers and path formats", "why_tests_cant": "Tests ask for a few attributes of one server and compare with the code's own constants; the claim is about every device, every object and every way to write the path, and about what a request for something absent does to the session.", "anchors": ["server.go:376-426", "server_connected.go:521-589", "server_unconnected.go:141-334", "server_unconnected.go:383-479"]}
{"id": "C94", "title": "Tags can be read and written outside a connection", "statement": "A read or write of a tag sent in an Unconnected Send reaches the tag provider its route names: a read is answered with type and bytes of the elements asked for, a write is confirmed exactly if the values are stored, and what cannot be done is answered with an error status. The same holds for single tags addressed by their number in the list of tags (class 0xC8, attribute 1), and what a read by number gives can be given back to a write by number.", "quantifier": "all routes, tag paths, types, values, element counts, tag numbers and server states; alone or in an Unconnected Send", "why_tests_cant": "Tests send a few even-sized values along one route; whether the padding of odd messages, the tail of a string or a route of another length is read right depends on every size and value.", "anchors": ["server_unconnected.go:67-121 unconnectedData (Unconnected Send)", "server_unconnected.go:336-381 unconnectedServiceWrite", "server_unconnected.go:383-479 unconnectedServiceGetAttrSingle", "server_unconnected.go:486-542 unconnectedServiceSetAttrSingle", "server_unconnected.go:560-637 resolveSymbolicTagFromCustomClass, unconnectedServiceRead", "server_connected.go:418-475 parseWriteValues"]}
{"id": "C95", "title": "Cyclic data is sent for exactly the connections opened for it", "statement": "A request that opens a connection for cyclic data starts one sender, for that connection and with the data of the endpoint its path names; no other request starts or stops a sender, no connection has two, and a sender goes on exactly as long as its connection is open. A request the server cannot serve is refused.", "quantifier": "all requests of arbitrary bytes in any order on any number of sessions, all routes and endpoints", "why_tests_cant": "Tests open one or two connections; that nothing among all possible requests starts, doubles or drops a sender is about every input and every history.", "anchors": ["server.go:619-702 largeForwardOpen", "server.go:704-795 forwardOpen", "server.go:797-860 ioConnection", "server_connections.go:65-115 CloseByID"]}
{"id": "C96", "title": "No two connections or sessions get the same identifier", "statement": "The identifiers under which the server opens connections and sessions are different from those of all others: messages sent on one connection are not taken for messages of another.", "quantifier": "all histories of requests, all identifiers asked for or left to the server, all results of the random source that do not repeat", "why_tests_cant": "A collision needs two particular requests out of all histories; tests with one client never meet it.", "anchors": ["server.go:619-702 largeForwardOpen", "server.go:704-795 forwardOpen", "server.go:862-882 registerSession", "server_connections.go:35-64 GetByOT"]}
{"id": "C97", "title": "Adding tags to a data table is all or nothing", "statement": "AddTag, AddTagRef, AddTags and AddTaggedStruct add exactly the tags named, at the end of the table, each with its type, its request path and the number of bytes its value takes, and, if one was given, its variable; when one of the tags has no path or no size, an error is returned and the table is as before.", "quantifier": "for every table, list of names and types, known structure sizes and visiting order of the map", "why_tests_cant": "all names, types and structure sizes, and every order in which the map is visited", "anchors": ["datatable.go:AddTag", "datatable.go:AddTagRef", "datatable.go:AddTags", "datatable.go:AddTaggedStruct", "datatable.go:resolveTypeSize", "datatable.go:dataTableTypeSize"]}
{"id": "C98", "title": "The outputs are those of the newest message", "statement": "While output messages arrive, the outputs of an endpoint are those of the newest message for it, the one with the greatest number; messages for other endpoints or connections, and messages that are no output messages, change nothing, and no message changes the inputs.", "quantifier": "for every list of datagrams, each with the connections open when it arrives, every router and all structures of inputs and outputs", "why_tests_cant": "all orders in which datagrams can arrive, and all numbers they can carry", "anchors": ["server.go:142-200 serveUDP", "server_io.go:IOWrite", "server_router.go:Resolve"]}
{"id": "C99", "title": "Every receiver gets the output messages in order", "statement": "Each channel handed out by GetOutputDataChannel gives, in order, the outputs of exactly those messages that arrive while somebody waits at it; the inputs sent are those set last.", "quantifier": "for every list of messages, channels opened and inputs set, and every choice of who waits when", "why_tests_cant": "all interleavings of messages, receivers and newly opened channels", "anchors": ["server_iochannel.go:IOWrite", "server_iochannel.go:GetOutputDataChannel", "server_iochannel.go:SetInputData", "server_iochannel.go:IORead"]}
{"id": "C100", "title": "No datagram stops the server, and each reaches only its addressee", "statement": "Whatever arrives on the UDP port, neither the server nor an endpoint crashes; a datagram of 1 to 4095 bytes, missing bytes being read as zero, reaches an endpoint exactly if its first item names an open connection whose path leads there, with the contents of its second item; all other datagrams are dropped.", "quantifier": "for every datagram, table of connections, router, and structure of inputs and outputs", "why_tests_cant": "all byte sequences that anybody on the network can send, against every table of connections", "anchors": ["server.go:142-200 serveUDP", "items.go:readItems", "server_connections.go:GetByOT", "server_router.go:Resolve", "server_io.go:IOWrite", "server_iochannel.go:IOWrite"]}
{"id": "C101", "title": "Arrays hold only values of their element type", "statement": "Whatever requests the server is sent, every element of a stored array has the array's element type. A value written to an element, or several values written to the whole array, are converted to that type, whole numbers keeping their value if the type has it; if one of the values cannot be converted the write is refused and nothing changes.", "quantifier": "every store, array, element type, index, value and type; every sequence of requests on every number of connections", "why_tests_cant": "the pairs of types are 144 and the values unbounded; the invariant is about every sequence of requests, and a value of a foreign type shows only when a later read encodes the array", "anchors": ["server_router.go:152-209", "server_router.go:234-243", "server_connected.go:46-56", "server_unconnected.go:366-376"]}
{"id": "C102", "title": "A client that is connected has a session", "statement": "When Connect succeeds, the controller has registered a session for the client, every request after the first carries the handle it gave, and the client goes on with that handle and the identifier granted to it. If the session is refused or not answered, Connect fails.", "quantifier": "for every client configuration and all three answers", "why_tests_cant": "all reply bytes and configurations; a refusal is an answer like any other and shows only in a status field", "anchors": ["connect.go:178-193 registerSession", "connect.go:137-165 Connect", "connect.go:479-517 forwardOpen", "sendreceive.go:20-47 sendMsgBuild"]}
{"id": "C103", "title": "Settings are used, and those left out have their defaults", "statement": "The client dials the address and port it is set to and asks for the connection with the route, size, vendor, serial number and packet interval it is set to. A setting that is left out has its documented default: port 44818, slot 0 of the backplane, 4000 bytes, vendor 0x9999, 2.5 seconds, a timeout of 10 seconds. No setting that was made is changed by connecting.", "quantifier": "for every combination of settings made and left out, every clock and all answers of the controller", "why_tests_cant": "all combinations of settings and answers", "anchors": ["client.go:NewClient", "connect.go:Connect", "connect.go:newForwardOpenLarge", "connect.go:newForwardOpenStandard", "path.go:CIPPort.Bytes"]}
{"id": "C104", "title": "A client of the library works with a server of the library", "statement": "A gologix client that connects to a gologix server is granted a session and a connection in two exchanges; afterwards every sequence of writes and reads of tags, elements, arrays and lists of them behaves like a memory of named values: each call succeeds, and each read returns what was last written under that name (in any letter case) or what the tag held from the beginning. A request the server cannot satisfy is reported to the client with the status the server chose and leaves the connection usable.", "quantifier": "for all client settings with a routable path, all clocks, all servers with a tag provider on that route, all sequences of calls, tags, atomic and string values and sequence counts", "why_tests_cant": "The tests of the client need a controller and the tests of the server use hand-made frames; no test runs arbitrary call sequences of both together.", "anchors": ["connect.go:70-170", "read.go:401-636", "read.go:777-1028", "partialread.go:60-90", "write.go:221-315", "server.go:209-345", "server_connected.go:1-120", "sendreceive.go:79-107"]}
{"id": "C105", "title": "Any Go value is written as what it is, or refused", "statement": "Whatever Go value is given to Write, either the request names the type of the value, its number of elements and its bytes as the controller lays them out, or Write returns an error and sends nothing. It does not crash the calling program. A structure that was written is read back with the same value.", "quantifier": "for every Go value: nil, values of, pointers to, slices and arrays of the supported types, values of named types, structures, pointers to and slices of structures, and everything else", "why_tests_cant": "tests give Write the values it was made for; the kinds of Go values that reach the last case of a type switch are unbounded", "anchors": ["write.go:Write", "write.go:write_single", "write.go:write_udt", "types.go:GoVarToCIPType", "items.go:Serialize"]}
{"id": "C106", "title": "Several clients share the tags of one server", "statement": "Any number of gologix clients can connect to one gologix server. Each works with the tags of the route it asked for, and the calls of all of them, in whatever order they are served, behave like one memory: a read returns what the last write by any client put there. Connecting another client does not disturb the others.", "quantifier": "for all numbers of clients, all interleavings of their calls, all tags, elements and arrays of atomic types, all clocks and settings with a routable path", "why_tests_cant": "The race between clients depends on timing and on the identifiers they draw from the clock; no test connects two clients to one server.", "anchors": ["connect.go:70-170", "server.go:115-132", "server_router.go:92-270", "server_connections.go:25-60", "server.go:617-790"]}
{"id": "C107", "title": "A read returns what the tag held at one time", "statement": "While several connections read and write the tags of a server at the same time, the answer to a read is the value the tag had at some time while the request was handled: never a mixture of an older and a newer value.", "quantifier": "for all schedules of any number of connections, all tags, values and element counts", "why_tests_cant": "A mixture needs a write between two elements of a reply, a window of nanoseconds; tests use one client.", "anchors": ["server_router.go:97-209", "server_connected.go:143-190", "server_connected.go:310-341", "server_unconnected.go:609-640", "server.go:115-132"]}
{"id": "C108", "title": "A client lists the tags of a server", "statement": "A client of the library connected to the tags of a server of the library that calls ListAllTags learns every tag of the server, and a server without tags is listed as having none.", "quantifier": "for every server and its tags, every client and connection, every state both have reached", "why_tests_cant": "the server and the client are tested with controllers and messages of their own; no test lets one list the tags of the other, and both sides agree with their own tests", "anchors": ["listalltags.go:115-324", "listallprograms.go:12-57", "server.go:441-468", "server_unconnected.go:207-227"]}
{"id": "C109", "title": "Clients of a server come and go", "statement": "When a client of the library disconnects from a server of the library, its connection and no other is taken from the server's connection table; the other clients go on; what was written stays; a client can come back; and the table has the connections of the clients that are connected, and no others.", "quantifier": "for every number of clients, every sequence of connecting, calls and disconnecting, every state of the server", "why_tests_cant": "tests connect one client and disconnect it at the end; whose entry is removed shows only with several clients that connect at certain times, and an entry that stays behind shows only in the table", "anchors": ["disconnect.go:54-142", "connect.go:70-170", "connect.go:341-376", "connect.go:421-455", "server.go:115-132", "server.go:198-246", "server.go:546-565", "server_connections.go:65-115"]}
{"id": "C110", "title": "A client asks a server about itself", "statement": "A connected client of the library that asks a server of the library for its identity, its services, one attribute or all attributes of an object, or sends any other service, gets what the server publishes or an error that says why not, and its session goes on; nothing changes at the server, and its other clients are not disturbed.", "quantifier": "for every published identity, every number of connected clients and every one of them, every object, attribute and service, every state both have reached", "why_tests_cant": "the two sides are tested against captured messages; no test lets a client of the library ask a server of the library", "anchors": ["listidentity.go:47-76", "listservices.go:40-62", "getattr.go:101-162", "getattr.go:421-487", "server.go:209-246", "server.go:251-345", "server_connected.go:521-589", "server_listidentity.go:103-110"]}
{"id": "C111", "title": "Structures with TIMER, COUNTER and CONTROL members", "statement": "A structure that has TIMER, COUNTER or CONTROL members, alone, nested or in arrays, is packed to the controller's image of it and unpacked from it: every member at a multiple of 4 bytes as its control word and its two numbers, and the other fields around it as without it; a client reads such structures, and slices of them and of the built-in types, from a controller, and writes them with their handle and image.", "quantifier": "for every structure of numbers, booleans, arrays, nested structures and built-in types, and every value of it", "why_tests_cant": "tests pack and unpack one TIMER by itself; none has one inside a structure with fields around it, and none has an array of them", "anchors": ["pack.go:24-44", "pack.go:96-237", "pack.go:241-387", "lgxtypes/timer.go:26-78", "lgxtypes/counter.go:18-78", "lgxtypes/control.go:21-93", "read.go:332-369", "write.go:101-302"]}
{"id": "C112", "title": "Printed statuses, services, types and errors tell what they are", "statement": "CIPStatus.String, CIPService.String and CIPType.String print different values differently; a status without a name is printed with its code, a type with its code in front. CIPError.Error and the errors of calls (GenericCIPMessage, GetAttrList, Read, ReadMap, ReadMulti) show the codes they stand for, so that different failures read differently. Counterparts: LWORD (0xD4) is printed as 0xC9, which is ULINT; CIPError prints code and extended code without anything between them; CIPStatusError always says it expected 0x4F4B, since %X of a value with a String method prints the text in hexadecimal, and so do service mismatches; calls keep 8 bits of a status of 16 or 32 and can report a failure as OK.", "quantifier": "for every status, service, type, error code, extended code and tag name", "why_tests_cant": "A test compares a few texts; that no two of the 256 texts, and of all pairs of codes, collide needs all of them.", "anchors": ["cip_definitions.go:437-535", "services.go:27-98", "types.go:175-214", "errors.go:14-70", "getattr.go:305-307", "getattr.go:325-327", "getattr.go:475-485", "read.go:479-481", "read.go:866-868", "read.go:904-906"]}
{"id": "C113", "title": "Goroutines sharing a client do not clash on its tables", "statement": "However many goroutines use one client, no table of the client (KnownTags, KnownTypes, KnownTypesByID, KnownPrograms, the cache of paths, the version of the firmware) is written while another goroutine uses it, and the goroutines never wait for each other's locks for ever.", "quantifier": "any number of goroutines, any sequence of path lookups, requests, sizes of structures, listings and template queries in each, every schedule, any answers", "why_tests_cant": "A clash needs one of many schedules; the race detector only sees the schedules that a test happens to run, and Go ends the program when it notices one.", "anchors": ["ioi.go:107-224", "client.go:239-258", "datatable.go:96-104", "listalltags.go:115-320", "listsubtags.go:16-152", "listmembers.go:154-282", "listallprograms.go:16-58", "sendreceive.go:79-107"]}
{"id": "C114", "title": "Structures and maps are filled with what a server holds", "statement": "A client connected to a server of this library that calls ReadMulti on a structure, or ReadMap on a map, gets in each tagged field, or under each key, what the server holds under that tag, and nothing else changes; what was written with WriteMap is what ReadMap returns afterwards; the session goes on.", "quantifier": "any structure without embedded ones, any arguments, any number of keys, any contents of the server, any types and lengths that fit, any split into requests", "why_tests_cant": "The result depends on reflection over the structure, the split into packets, the server's packing of replies and the client's parsing of them together; tests use a few structures against one simulated controller.", "anchors": ["read.go:703-769", "read.go:777-1028", "read.go:1107-1154", "udt_write.go:127-223", "server_connected.go:65-270"]}
{"id": "C115", "title": "A structure written to a server is what is there afterwards", "statement": "A client connected to a server of this library that calls WriteMulti on a structure, or WriteMap on a map, leaves under the tag of every field, with inner members after a dot, exactly the value of that field, and everything else as it was, whatever order Go visits the map in; reading the tags with ReadMulti gives the values back; a call that reports success has written every value.", "quantifier": "any tagged structure with any nesting, any values, any order of the map, any contents of the server before, any structure read into afterwards", "why_tests_cant": "The order of a Go map is random, so a test sees one order per run; the element count of every embedded write is fixed to 1 whatever the value, which shows only with slices, and the reply is never looked at, so a test that checks the returned error cannot notice it.", "anchors": ["udt_write.go:11-77", "udt_write.go:127-223", "write.go:49-63", "server_connected.go:65-270"]}
{"id": "C116", "title": "A keep-alive on a connection to a server of this library", "statement": "The keep-alive of a client that is connected to a server of this library sends a request at every tick as long as the client is connected, goes on with the attributes it gets, disconnects when a request fails, and disturbs neither the session nor the server; the controller's change attributes and forces can be asked of the server, or the call says that they cannot.", "quantifier": "any state client and server have reached, any attributes to be watched, any number of ticks, with and without polling of the tags", "why_tests_cant": "The keep-alive runs in a goroutine of its own with a ticker of 30 seconds; its end is only logged, so a test that works with the connection does not notice that nothing keeps it alive.", "anchors": ["connect.go:195-272", "getattr.go:211-226", "getattr.go:244-316", "server.go:262-345", "canned/forces.go:18-39"]}
{"id": "C117", "title": "A group of tags is read from a server", "statement": "A client connected to a server of this library that reads a group of tags gets a result that has, under the name of every definition with the arguments filled in, exactly what the server holds there, handed out by the accessor of its type, and no other names; the session goes on. A tag that does not have the type or the number of elements defined is reported, and the others are read.", "quantifier": "any group with distinct names, any arguments, any contents of the server, any order of the map, any split into requests", "why_tests_cant": "The group is turned into a map of zero values that Go visits in random order and that is filled by type from replies of another program; tests use fixed replies.", "anchors": ["taggroup_readmap.go:20-39", "taggroup.go:57-116", "taggroup.go:163-330", "read.go:1107-1154", "server_connected.go:65-270"]}
{"id": "C118", "title": "A client connects by itself when it may", "statement": "A client that is not connected and has AutoConnect set connects with its next call to a server of this library, and that call and the following ones do what the same calls do on the memory of tags; without AutoConnect every call is an error and nothing reaches the server. A call after the connection was lost is served over a new connection.", "quantifier": "any call and any later calls, any contents of the server, any settings, any state left by an earlier connection", "why_tests_cant": "Needs a connection that is lost at a given moment and the same server afterwards; which call notices depends on what the server did after its last reply.", "anchors": ["connect.go:547-559", "connect.go:70-170", "sendreceive.go:79-107", "udt_write.go:127-223", "read.go:38-42", "write.go:101-105", "server.go:204-246"]}
{"id": "C119", "title": "Bits of tags of a server", "statement": "A client that reads bit n of an integer tag of a server of this library, or of an element of an array, gets bit n of the number the tag has at that time; a bit that does not exist is an error; writing a bit changes that bit of the number and no other. The session goes on.", "quantifier": "any tag and element, any integer type and value, any bit number, any contents of the server, any settings", "why_tests_cant": "Every integer type, value and bit; and what is left of a number after a bit is written shows only when the number is read again.", "anchors": ["ioi.go:107-200", "read.go:500-535", "types.go:309-452", "write.go:101-168", "server_connected.go:9-60", "server_connected.go:261-330", "server_router.go:97-209"]}
{"id": "C120", "title": "Values of another type in arrays of a server", "statement": "A client that writes a value of another type to an element of an array of a server of this library, or such values to the whole array, finds the same number there afterwards if the array's type has it, and every other element and tag as before; a value that the array cannot hold, or an element it does not have, is an error to the client, no tag changes and the session goes on.", "quantifier": "any two types, any values, any element, any contents of the server, any settings", "why_tests_cant": "Every pair of types and every value; what a refused write leaves behind shows only in the calls after it.", "anchors": ["server_router.go:152-209", "server_router.go:234-243", "server_connected.go:9-75", "write.go:101-168", "server.go:204-246"]}
{"id": "C121", "title": "Values written at once are all written or none", "statement": "A client that writes values to several tags of a server of this library at once has written all of them if the call returns no error, and none of them if it returns one.", "quantifier": "any tags and values that fit a packet, any of them refused, any contents of the server, any settings", "why_tests_cant": "Which of the values is refused and what came before it in the packet is unbounded; a test looks at the error and not at the tags after it.", "anchors": ["udt_write.go:127-203", "server_connected.go:65-254", "server_router.go:152-209", "server.go:204-246"]}
