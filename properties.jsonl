{"id": "C01", "title": "An open connection belongs to one partner only", "statement": "While a connection-oriented transport connection with partner P is open, no telegram from any other individual address closes it, changes the partner, changes either sequence number, repeats, drops or alters data waiting to be acknowledged, or reaches the application over the connection; the only possible reaction is a T_DISCONNECT sent back to the intruder.", "quantifier": "every reachable transport-layer state, every received telegram, every sender address other than the partner", "why_tests_cant": "the state is an arbitrary interleaving of connect/data/ack/timeouts of two or more stations; tests only play chosen scripts", "anchors": ["sblib/src/eib/knx_tlayer4.cpp:processTelegramInternal", "sblib/src/eib/knx_tlayer4.cpp:processConControlConnectPDU", "sblib/src/eib/knx_tlayer4.cpp:processConControlAcknowledgmentPDU", "sblib/src/eib/knx_tlayer4.cpp:processDirectTelegram"]}
{"id": "C02", "title": "In-order, at-most-once delivery of numbered requests", "statement": "Within one connection the application is handed numbered data telegrams only with consecutive sequence numbers 0,1,...,15,0,...: the n-th telegram handed over since the connect carries sequence number n mod 16. A repeated telegram (same number as the previous one) is acknowledged again but not handed over a second time, and a telegram with any other number is answered with T_NAK and not handed over.", "quantifier": "every history of received telegrams, loop calls and send notifications, of any length", "why_tests_cant": "needs unbounded histories including wrap of the 4-bit sequence number and arbitrary repetition", "anchors": ["sblib/src/eib/knx_tlayer4.cpp:processDirectTelegram", "sblib/src/eib/knx_tlayer4.cpp:actionA02sendAckPduAndProcessApci", "sblib/src/eib/knx_tlayer4.cpp:actionA03sendAckPduAgain", "sblib/src/eib/knx_tlayer4.cpp:actionA04SendNAck"]}
{"id": "C03", "title": "End-to-end exactly-once with a repeating client over a lossy bus", "statement": "If a client sends requests m0,m1,... over one connection, numbering them mod 16, repeating the current one any number of times until its T_ACK arrives and only then going on, then whatever telegrams and T_ACKs the bus loses or duplicates, the list of requests the device's application processes is always a prefix of m0,m1,..., and it contains every request whose T_ACK the client has seen.", "quantifier": "every request list, every loss/duplication schedule, every number of repetitions", "why_tests_cant": "a joint state space of two protocol parties and an adversarial channel", "anchors": ["sblib/src/eib/knx_tlayer4.cpp:processDirectTelegram", "sblib/src/eib/knx_tlayer4.cpp:actionA02sendAckPduAndProcessApci", "sblib/src/eib/knx_tlayer4.cpp:actionA03sendAckPduAgain"]}
{"id": "C04", "title": "Bounded repetition of an unacknowledged response", "statement": "A connection-oriented response is transmitted at most 1+3 times, every transmission carries the same content and the current send sequence number, the number is advanced (mod 16) exactly when the partner's matching T_ACK arrives, and when the repetitions are used up the connection is closed with a T_DISCONNECT.", "quantifier": "every history of loop calls at arbitrary times, T_ACK/T_NAK/other telegrams", "why_tests_cant": "time-outs and negative acknowledgements interleave without bound", "anchors": ["sblib/src/eib/knx_tlayer4.cpp:loop", "sblib/src/eib/knx_tlayer4.cpp:actionA07SendDirectTelegram", "sblib/src/eib/knx_tlayer4.cpp:actionA09RepeatMessage", "sblib/src/eib/knx_tlayer4.cpp:actionA08IncrementSequenceNumber", "sblib/src/eib/knx_tlayer4.cpp:processConControlAcknowledgmentPDU"]}
{"id": "C05", "title": "Connection timeout fires at 6 s and not earlier", "statement": "When the transport loop runs with the send buffer free and at least 6000 ms have passed since the last accepted activity on the open connection, the connection is closed and the partner is sent a T_DISCONNECT; while fewer than 6000 ms have passed the loop never closes it because of the connection timeout. This also holds across wrap-around of the 32-bit millisecond counter.", "quantifier": "every state, every 32-bit time pair", "why_tests_cant": "wrap-around of the millisecond counter takes 49 days", "anchors": ["sblib/src/eib/knx_tlayer4.cpp:loop", "sblib/inc/sblib/timer.h:elapsed"]}
{"id": "C06", "title": "No connection-oriented service without a connection", "statement": "When no connection is open, no numbered data telegram and no T_ACK/T_NAK/T_DISCONNECT causes the application to be called, a telegram to be sent, or the transport state to change; only T_CONNECT opens a connection.", "quantifier": "every reachable closed state and every telegram", "why_tests_cant": "quantifies over all telegram contents", "anchors": ["sblib/src/eib/knx_tlayer4.cpp:processDirectTelegram", "sblib/src/eib/knx_tlayer4.cpp:processConControlTelegram"]}
{"id": "C07", "title": "Telegrams for other devices are ignored by the transport layer", "statement": "A telegram with the individual-address flag whose destination is neither our own address nor 0 changes nothing and produces no output.", "quantifier": "every state, every telegram, every own address", "why_tests_cant": "quantifies over all telegrams and states", "anchors": ["sblib/src/eib/knx_tlayer4.cpp:processTelegramInternal"]}
{"id": "C08", "title": "Transport-layer state invariants", "statement": "In every reachable state: while a connection is open both sequence numbers are in 0..15; the layer waits for an acknowledgement exactly when a response has been sent and not yet acknowledged; the repetition counter never exceeds 3; no second response is marked in transmission; and a closed connection holds no pending response.", "quantifier": "every history of API calls and received telegrams", "why_tests_cant": "unbounded histories", "anchors": ["sblib/src/eib/knx_tlayer4.cpp"]}
{"id": "C09", "title": "KNX frame checksum round trip and error detection", "statement": "The checksum byte appended when a telegram is queued makes the receiver's checksum test succeed, for every telegram length; and if exactly one byte of the frame (including the checksum) is altered in any way the receiver's test fails.", "quantifier": "every telegram content and length, every single-byte corruption", "why_tests_cant": "infinite domain of telegrams", "anchors": ["sblib/src/eib/bus.cpp:prepareTelegram", "sblib/src/eib/bus.cpp:handleTelegram"]}
{"id": "C10", "title": "Character framing round trip and parity detection", "statement": "The sequence of bits (start, eight data bits least significant first, even parity, stop) the sender puts on the line for a byte is decoded by the receiver to the same byte with correct parity, and a flip of any single data or parity bit is reported as a parity error.", "quantifier": "every byte, every bit position", "why_tests_cant": "the timer-driven encoder/decoder pair is only run on examples by tests", "anchors": ["sblib/src/eib/bus.cpp:timerInterruptHandler"]}
{"id": "C11", "title": "A received telegram is never overwritten before the application took it", "statement": "While a received telegram is waiting to be processed, no further reception changes its content or length; such frames are not acknowledged.", "quantifier": "every reception history", "why_tests_cant": "interleaving of interrupt receptions and the main loop", "anchors": ["sblib/src/eib/bus.cpp:handleTelegram", "sblib/src/eib/bus.cpp:discardReceivedTelegram"]}
{"id": "C12", "title": "A repeated frame is delivered once", "statement": "If a frame that was already accepted is received again directly afterwards with only the repeat flag (and hence the checksum) changed, it is acknowledged but not delivered to the upper layer a second time.", "quantifier": "every frame, every state after its first reception", "why_tests_cant": "all frame contents", "anchors": ["sblib/src/eib/bus.cpp:handleTelegram"]}
{"id": "C13", "title": "Acceptance filter of the link layer", "statement": "A frame is handed to the upper layer only if it was received without error, is at least 8 and at most the maximum number of bytes long, has a correct checksum, is a standard data frame, and is addressed to our own address, to a group address of our address table or broadcast (or the transport layer is disabled).", "quantifier": "every received byte sequence", "why_tests_cant": "all byte sequences", "anchors": ["sblib/src/eib/bus.cpp:handleTelegram"]}
{"id": "C14", "title": "Bounded link-layer retransmission and exactly one completion report", "statement": "For every queued telegram the link layer makes a bounded number of transmissions whatever acknowledgements (ACK, NACK, BUSY, none, garbage) and collisions occur, the repeat flag is set on repetitions only, and the upper layer is told exactly once that transmission ended, with success only if an ACK was received.", "quantifier": "every sequence of acknowledgement outcomes", "why_tests_cant": "unbounded outcome sequences", "anchors": ["sblib/src/eib/bus.cpp:handleTelegram", "sblib/src/eib/bus.cpp:finishSendingTelegram", "sblib/src/eib/bus.cpp:timerInterruptHandler"]}
{"id": "C15", "title": "Flag updates touch one communication object only", "statement": "Setting or adding RAM flags of one communication object never changes the flags of any other object, and the flags of the object read back as written.", "quantifier": "every flag table, every pair of object numbers, every combination of the four RAM flags", "why_tests_cant": "two objects share one byte", "anchors": ["sblib/src/eib/com_objects.cpp:addObjectFlags", "sblib/src/eib/com_objects.cpp:setObjectFlags"]}
{"id": "C16", "title": "Communication-object value round trip", "statement": "objectWrite followed by objectRead of the same object returns the written value truncated to the object's size, and leaves the value of every object whose storage does not overlap unchanged.", "quantifier": "every object layout, size and value", "why_tests_cant": "all layouts and values", "anchors": ["sblib/src/eib/com_objects.cpp:objectRead", "sblib/src/eib/com_objects.cpp:_objectWrite", "sblib/src/eib/com_objects.cpp:_objectWriteBytes"]}
{"id": "C17", "title": "Updated objects are reported exactly once, lowest first", "statement": "nextUpdatedObject returns the lowest-numbered object whose update flag is set and clears exactly that flag; calling it until it reports none enumerates every updated object exactly once in ascending order and terminates.", "quantifier": "every flag table and number of objects", "why_tests_cant": "all flag tables", "anchors": ["sblib/src/eib/com_objects.cpp:nextUpdatedObject"]}
{"id": "C18", "title": "Every pending group telegram is eventually sent (no starvation)", "statement": "If an object has a pending transmission request and its configuration allows it, then repeated calls of the group-telegram sender send it after a bounded number of calls, even if other objects are re-requested all the time.", "quantifier": "every number of objects, flag table, scan position and re-request pattern", "why_tests_cant": "fairness needs all schedules", "anchors": ["sblib/src/eib/com_objects.cpp:sendNextGroupTelegram"]}
{"id": "C19", "title": "Group write telegram round trip between devices", "statement": "The telegram built for a group write of an object, received by another device that has an object of the same type and the write+communication flags on that group address, sets that object to the same value and marks it updated.", "quantifier": "every object type and every value of the type", "why_tests_cant": "all values and types", "anchors": ["sblib/src/eib/com_objects.cpp:sendGroupWriteTelegram", "sblib/src/eib/com_objects.cpp:processGroupWriteTelegram"]}
{"id": "C20", "title": "Group address table lookup", "statement": "indexOfAddr returns the position of a group address iff the address is in the table, and -1 (rejecting the telegram) otherwise.", "quantifier": "every table content and every address", "why_tests_cant": "all tables", "anchors": ["sblib/src/eib/addr_tables.cpp", "sblib/src/eib/addr_tablesBCU1.cpp", "sblib/src/eib/addr_tablesBCU2.cpp"]}
{"id": "C21", "title": "Group rate limiting", "statement": "The main loop never queues group telegrams of pending objects more often than the configured limit: two transmissions are at least the configured interval apart (up to the documented catch-up after an idle period).", "quantifier": "every loop schedule and every wrap of the clock", "why_tests_cant": "all schedules", "anchors": ["sblib/src/eib/bcu_default.cpp:loop", "sblib/src/eib/bcu_default.cpp:setGroupTelRateLimit"]}
{"id": "C22", "title": "Remote memory write/read is confined and faithful", "statement": "A memory write request stores exactly the given bytes at the given addresses and nothing else; if any address lies outside the device's RAM, EEPROM and mapped flash the request is reported as failed; a following memory read of the same range returns the bytes written.", "quantifier": "every address, length, payload and memory content", "why_tests_cant": "all addresses and splits over memory areas", "anchors": ["sblib/src/eib/bcu_default.cpp:processApciMemoryOperation", "sblib/src/eib/userRam.cpp", "sblib/src/eib/userEeprom.cpp"]}
{"id": "C23", "title": "Individual address can be changed by broadcast only in programming mode", "statement": "An individual-address write (or read) broadcast has no effect and no answer unless the device is in programming mode; in programming mode a write sets exactly the transmitted address.", "quantifier": "every device state and broadcast telegram", "why_tests_cant": "all telegrams and states", "anchors": ["sblib/src/eib/bcu_default.cpp:processBroadCastTelegram"]}
{"id": "C24", "title": "Load-control events determine the load state", "statement": "A load-control write moves the addressed interface object to the state prescribed by the event (start loading, load completed, unload, additional load control; anything else: error), whatever the previous history, and does not change the load state of other objects.", "quantifier": "every event history and every payload", "why_tests_cant": "all payloads and histories", "anchors": ["sblib/src/eib/propertiesBCU2.cpp:handleLoadStateMachine", "sblib/src/eib/propertiesBCU2.cpp:loadProperty"]}
{"id": "C25", "title": "The application runs only when every table is loaded", "statement": "applicationRunning is true only if run state is running and the application, address table, association table (and for the relevant masks further objects) are in state loaded.", "quantifier": "every memory content", "why_tests_cant": "all contents", "anchors": ["sblib/src/eib/bcu2.cpp:applicationRunning", "sblib/src/eib/bcu1.cpp:applicationRunning"]}
{"id": "C26", "title": "Property value write/read round trip", "statement": "Writing a writable, fixed-size interface-object property through the property service and reading it back returns the bytes written; a read-only or unknown property is never changed and reported as failed.", "quantifier": "every property definition, value and memory", "why_tests_cant": "all property tables", "anchors": ["sblib/src/eib/propertiesBCU2.cpp:propertyValueReadTelegram", "sblib/src/eib/propertiesBCU2.cpp:propertyValueWriteTelegram"]}
{"id": "C27", "title": "DPT 9 conversion accuracy", "statement": "For every value in the representable range dpt9ToFloat(floatToDpt9(v)) differs from v by less than one step of the chosen exponent, is exact when v is representable, is monotone, and floatToDpt9(dpt9ToFloat(w)) denotes the same value as w for every valid 16-bit w; out-of-range values give the invalid code 0x7FFF.", "quantifier": "every 32-bit integer value and every 16-bit code", "why_tests_cant": "2^32 inputs and a numerical accuracy claim", "anchors": ["sblib/src/eib/datapoint_types.cpp:floatToDpt9", "sblib/src/eib/datapoint_types.cpp:dpt9ToFloat"]}
{"id": "C28", "title": "EEPROM image is what was last saved", "statement": "After any history of modifications, saves and restarts, a restart restores exactly the EEPROM content of the last completed save (all zero if none was ever made).", "quantifier": "every history of writes, saves, restarts", "why_tests_cant": "unbounded histories with page rotation and sector erase", "anchors": ["sblib/src/eib/userEeprom.cpp:writeUserEeprom", "sblib/src/eib/userEeprom.cpp:readUserEeprom", "sblib/src/eib/userEeprom.cpp:findValidPage"]}
{"id": "C29", "title": "EEPROM save is crash-safe while pages are left", "statement": "If power fails at any point while an EEPROM image is being saved and the save did not have to erase the sector first, a restart finds either the complete old image or the complete new image.", "quantifier": "every crash point and every image", "why_tests_cant": "crash points are not testable exhaustively", "anchors": ["sblib/src/eib/userEeprom.cpp:writeUserEeprom", "sblib/src/eib/userEeprom.cpp:findValidPage"]}
{"id": "C30", "title": "Mapped flash memory: read your writes", "statement": "With MemMapper, after successful writes a read of a mapped address returns the last byte written to it, other mapped addresses keep their values, regardless of the order of writes, page changes and explicit flushes; after doFlash the contents survive a restart.", "quantifier": "every history of writeMem/readMem/doFlash/addRange", "why_tests_cant": "a one-page write cache with arbitrary access order", "anchors": ["sblib/src/mem_mapper.cpp:writeMem", "sblib/src/mem_mapper.cpp:readMem", "sblib/src/mem_mapper.cpp:doFlash", "sblib/src/mem_mapper.cpp:addRange"]}
{"id": "C31", "title": "Distinct virtual pages use distinct flash pages", "statement": "The allocation table of MemMapper never maps two virtual pages to the same flash page and never maps a page to the flash page that holds the table itself.", "quantifier": "every history of allocations", "why_tests_cant": "unbounded histories", "anchors": ["sblib/src/mem_mapper.cpp:allocatePage", "sblib/src/mem_mapper.cpp:addRange"]}
{"id": "C32", "title": "Timeouts expire once, not early, not missed", "statement": "A Timeout started with d ms reports expired() false at every query earlier than d ms, true at the first query at or after d ms (within half the counter range), and false afterwards until restarted; this includes wrap-around of the millisecond counter.", "quantifier": "every start time, every duration below half the counter range and every query schedule", "why_tests_cant": "49 day wrap-around", "anchors": ["sblib/inc/sblib/timeout.h"]}
{"id": "C33", "title": "Debounce reports only stable values", "statement": "The debounced value only ever changes to an input value that was sampled unchanged for at least the debounce time, and an input that stays constant is reported after the debounce time.", "quantifier": "every sample sequence and timing", "why_tests_cant": "all sample sequences", "anchors": ["sblib/src/debounce.cpp"]}
{"id": "C34", "title": "Serial FIFO integrity", "statement": "Bytes given to Serial::write leave the UART in the same order without loss or duplication, under every interleaving of the main program with the transmit interrupt; received bytes are returned by read() in order of reception, only bytes arriving while the buffer is full are lost.", "quantifier": "every interleaving of ISR and main program, every byte sequence", "why_tests_cant": "concurrency", "anchors": ["sblib/src/serial.cpp", "sblib/src/buffered_stream.cpp"]}
{"id": "C35", "title": "print/parseInt round trip", "statement": "Printing an integer in decimal and parsing the printed text with parseInt gives the same integer; printing in base b with n digits gives the positional representation, zero padded to at least n digits.", "quantifier": "every int value except INT_MIN (whose negation is undefined in C++), every base 2..36 and digit count within the buffer", "why_tests_cant": "all integers", "anchors": ["sblib/src/print.cpp", "sblib/src/stream.cpp:parseInt"]}
{"id": "C36", "title": "reverseCopy and word helpers", "statement": "reverseCopy copies a block in reverse byte order and applying it twice restores the block; makeWord/highByte/lowByte are inverse.", "quantifier": "every block length and content", "why_tests_cant": "all lengths", "anchors": ["sblib/src/utils.cpp:reverseCopy", "sblib/inc/sblib/bits.h"]}
{"id": "C37", "title": "Serial number hash is deterministic and loses nothing", "statement": "hashUID maps a 16-byte UID to a 6-byte serial that depends on the UID only (not on memory content), is the exclusive or of the two halves reduced modulo the documented prime with no bits lost, distinguishes UIDs that agree in one half and differ in the other modulo the prime, and refuses every invalid length.", "quantifier": "every UID", "why_tests_cant": "2^128 inputs", "anchors": ["sblib/src/utils.cpp:hashUID"]}
{"id": "C38", "title": "A locked bootloader never modifies flash", "statement": "From power-up until an unlock command with the device's UID was received, no bootloader command sequence erases or programs any flash byte, stores data or reveals anything but UID and application version.", "quantifier": "every sequence of commands of every content", "why_tests_cant": "unbounded command sequences", "anchors": ["firmware_updater/bootloader/src/update.cpp:handleApciUsermsgManufacturerInternal", "firmware_updater/bootloader/src/update.cpp:updUnlockDevice"]}
{"id": "C39", "title": "The bootloader never overwrites itself", "statement": "No sequence of update commands, locked or unlocked, changes any flash byte of the bootloader image.", "quantifier": "every command sequence, every linker layout (image size, flash size)", "why_tests_cant": "unbounded sequences, address arithmetic wrap-around", "anchors": ["firmware_updater/bootloader/src/flash.cpp", "firmware_updater/bootloader/src/update.cpp"]}
{"id": "C40", "title": "Programming is integrity-checked", "statement": "UPD_PROGRAM changes flash only if exactly the announced number of bytes was received and their CRC-32 equals the transmitted one; on reported success the flash holds exactly the received bytes at the requested address.", "quantifier": "every buffer, count, address and CRC", "why_tests_cant": "all data", "anchors": ["firmware_updater/bootloader/src/update.cpp:updProgram", "firmware_updater/bootloader/src/flash.cpp:executeProgramFlash"]}
{"id": "C41", "title": "Received data never overflows the RAM buffer", "statement": "Whatever number and sizes of data telegrams arrive, the number of buffered bytes never exceeds the buffer size and a telegram that does not fit is rejected without changing the buffer.", "quantifier": "every sequence of commands", "why_tests_cant": "unbounded sequences", "anchors": ["firmware_updater/bootloader/src/update.cpp:updSendData"]}
{"id": "C42", "title": "Erasing an address range erases exactly the pages of the range", "statement": "For a page-aligned start and an end at or behind it, inside the application area, a successful erase request erases every flash page that intersects the range and no other page.", "quantifier": "every start/end pair and flash layout", "why_tests_cant": "sector/page case analysis over all addresses", "anchors": ["firmware_updater/bootloader/src/flash.cpp:eraseAddressRange"]}
{"id": "C43", "title": "CRC-32 equals the standard definition and detects bursts", "statement": "The table-free CRC used by the bootloader equals the standard reflected CRC-32 (polynomial 0xEDB88320) of the data, and two blocks of equal length that differ only within 4 consecutive bytes never have the same CRC.", "quantifier": "every byte sequence", "why_tests_cant": "all data", "anchors": ["firmware_updater/bootloader/src/crc.cpp:crc32"]}
{"id": "C44", "title": "Differential decompressor reproduces the encoded page", "statement": "For every well-formed differential command stream that fits a page, feeding its bytes one at a time, split over telegrams in any way, leaves the page buffer equal to the concatenation of the raw bytes and the copied old flash / old page bytes, and the state machine ready for the next command.", "quantifier": "every command stream and old flash content", "why_tests_cant": "all streams", "anchors": ["firmware_updater/bootloader/src/decompressor.cpp:putByte"]}
{"id": "C45", "title": "Only a complete application is started", "statement": "At power-up the application is started only if the boot descriptor names an address range inside the application area whose CRC-32 matches the descriptor.", "quantifier": "every flash content", "why_tests_cant": "all flash contents", "anchors": ["firmware_updater/bootloader/src/boot_descriptor_block.cpp:checkApplication", "firmware_updater/bootloader/src/bootloader.cpp:startup"]}
{"id": "C46", "title": "1-Wire search finds every device exactly once", "statement": "After a search reset, repeated search calls on a bus with a fixed set of devices return every device ROM code exactly once and then report the end of the search.", "quantifier": "every non-empty finite set of 64-bit ROM codes", "why_tests_cant": "2^(2^64) device sets; the algorithm's correctness is an inductive argument over the ROM tree", "anchors": ["sblib/src/onewire.cpp:OneWireSearch"]}
{"id": "C47", "title": "Sensor/1-Wire CRC checks detect corruption", "statement": "The CRC-8 (Dallas, Sensirion) and CRC-16 routines equal their bitwise polynomial definition, the table driven and the bitwise Dallas versions agree, and any corruption confined to one byte (two for CRC-16) is detected.", "quantifier": "every byte sequence", "why_tests_cant": "all data", "anchors": ["sblib/src/onewire.cpp:OneWireCRC8", "sblib/src/onewire.cpp:OneWireCRC16", "sblib/src/i2c/ds2482.cpp:crc8", "sblib/src/i2c/SHT2x.cpp:crc8", "sblib/src/i2c/SHT4x.cpp:crc8", "sblib/src/i2c/SGP4x.cpp:crc8"]}
{"id": "C48", "title": "Real-time clock registers round trip", "statement": "Every valid time, calendar date and alarm written with SetTime/SetCalendar/SetAlarm is returned unchanged by the matching Get function, and out-of-range values are refused without any bus transfer.", "quantifier": "every value of the structures", "why_tests_cant": "all combinations", "anchors": ["sblib/src/i2c/ds3231.cpp"]}
{"id": "C49", "title": "shiftOut/shiftIn are inverse", "statement": "A byte shifted out is read back unchanged by shiftIn with the same bit order on the other side, for both bit orders.", "quantifier": "every byte and bit order", "why_tests_cant": "protocol between two sides", "anchors": ["sblib/src/digital_pin_shift.cpp"]}
{"id": "C50", "title": "DS2482 search finds every device exactly once", "statement": "Same as C46 for the I2C bridge driver.", "quantifier": "every non-empty finite set of ROM codes", "why_tests_cant": "see C46", "anchors": ["sblib/src/i2c/ds2482.cpp:wireSearch"]}
{"id": "C51", "title": "The transport layer never blocks for good on its send buffer", "statement": "Whenever the send buffer is free every operation of the transport layer can run, and from any reachable state at most four end-of-transmission reports from the link layer, with whatever results, free the send buffer.", "quantifier": "every reachable state, every result of the transmissions", "why_tests_cant": "the wait loop of acquireSendBuffer would hang the device; whether it can is a question about all histories", "anchors": ["sblib/src/eib/knx_tlayer4.cpp:acquireSendBuffer", "sblib/src/eib/knx_tlayer4.cpp:finishedSendingTelegram", "sblib/src/eib/knx_tlayer4.cpp:loop"]}
{"id": "C52", "title": "A prepared response is not lost before it is sent", "statement": "A response the application prepared for an accepted request is transmitted, in order, before any later response while the connection stays open; no accepted request makes an earlier, still unsent response disappear.", "quantifier": "every history of one connection", "why_tests_cant": "depends on how many requests are accepted before the first T_ACK arrives", "anchors": ["sblib/src/eib/knx_tlayer4.cpp:actionA02sendAckPduAndProcessApci", "sblib/src/eib/knx_tlayer4.cpp:actionA08IncrementSequenceNumber"]}
{"id": "C53", "title": "Update commands stay inside their buffers", "statement": "No update telegram, well-formed or not, makes the bootloader read or write memory outside the telegram, the download buffer, the decompressor's page buffers and the flash.", "quantifier": "every sequence of telegrams of any content and any flash content", "why_tests_cant": "memory safety for all hostile inputs; an out-of-bounds access need not be visible in a test", "anchors": ["firmware_updater/bootloader/src/update.cpp", "firmware_updater/bootloader/src/decompressor.cpp:putByte", "firmware_updater/bootloader/src/flash.cpp:executeProgramFlash"]}
{"id": "C54", "title": "Reading and finding text in a stream", "statement": "readBytes/readBytesUntil return exactly the bytes up to the length limit, the terminator or the timeout, in order, consume the terminator and nothing else; find/findUntil report success exactly if the target text occurs in the stream (before the terminator) and then have consumed the stream up to the end of its first occurrence.", "quantifier": "every stream content, target, terminator and length", "why_tests_cant": "all texts", "anchors": ["sblib/src/stream.cpp:_readBytesUntil", "sblib/src/stream.cpp:findUntil"]}
{"id": "C55", "title": "A group telegram affects only the objects it is meant for", "statement": "A received group write or response sets exactly the writable objects associated with its group address to the transmitted value and marks them updated; every other object, flag and byte of the device memory keeps its value, and nothing is sent. Telegrams with other group services change nothing.", "quantifier": "every configuration of address, association and object tables, every memory content, every telegram", "why_tests_cant": "all table contents and telegrams", "anchors": ["sblib/src/eib/com_objectsBCU1.cpp:processGroupTelegram", "sblib/src/eib/com_objects.cpp:processGroupWriteTelegram"]}
{"id": "C56", "title": "Group read requests are answered with the current value", "statement": "A group read request is answered by exactly the readable objects associated with its group address, one response telegram each, carrying the value the object has at that time; without such an object nothing is sent and nothing changes.", "quantifier": "every configuration, memory content and requested address", "why_tests_cant": "all table contents", "anchors": ["sblib/src/eib/com_objectsBCU1.cpp:processGroupTelegram", "sblib/src/eib/com_objects.cpp:sendGroupWriteTelegram"]}
{"id": "C57", "title": "The sender transmits the right telegram and keeps local objects in step", "statement": "Each call of the group-telegram sender sends exactly one telegram for the first pending object from its scan position on that is allowed to send, with the object's current value (or a read request) and its first group address; it clears the request, gives the value to the other writable objects of the device on that address, and changes nothing else. Without such an object it sends nothing and changes no object.", "quantifier": "every configuration, memory content and scan position", "why_tests_cant": "all table contents and flag patterns", "anchors": ["sblib/src/eib/com_objects.cpp:sendNextGroupTelegram", "sblib/src/eib/com_objects.cpp:sendGroupWriteTelegram", "sblib/src/eib/com_objects.cpp:sendGroupReadTelegram"]}
{"id": "C58", "title": "Pending EEPROM changes are saved by the loop exactly when allowed", "statement": "The device loop saves the user EEPROM if and only if a change is pending (the newest notification says modified), the device is enabled, no frame is being sent and no transport connection is open.", "quantifier": "every history of modification notifications with their times, every situation of the loop", "why_tests_cant": "all histories and times, including timer overflow", "anchors": ["sblib/src/eib/bcu_default.cpp:loop", "sblib/src/eib/userEeprom.cpp:modified", "sblib/src/eib/userEeprom.cpp:writeDelayElapsed"]}
{"id": "C59", "title": "Blocks and numbers in mapped flash memory", "statement": "With MemMapper on working flash, after any history that keeps the rules of use (only mapped addresses are written unless pages are added automatically; nothing is pending at addRange or restart): a block that writeMemPtr stored without error is what readMemPtr returns, a number that setUInt16/setUInt32 stored without error is what getUInt16/getUInt32 returns in the same byte order, with the documented byte layout, also across page boundaries; bytes outside keep their values. isMapped answers yes for an address exactly if pages are added automatically or its page was added (without automatic pages: exactly if it can be read), and isMappedRange does so for every range within two neighbouring pages.", "quantifier": "every such history, address, block, number and byte order", "why_tests_cant": "all histories and page boundaries", "anchors": ["sblib/src/mem_mapper.cpp:writeMemPtr", "sblib/src/mem_mapper.cpp:readMemPtr", "sblib/src/mem_mapper.cpp:getUIntX", "sblib/src/mem_mapper.cpp:setUIntX", "sblib/src/mem_mapper.cpp:isMapped", "sblib/src/mem_mapper.cpp:isMappedRange"]}
{"id": "C60", "title": "Search finds every temperature sensor", "statement": "After DS18x20::Search(max) every index below m_foundDevices refers to a different supported sensor (DS18S20, DS18B20, DS1822 with valid ROM CRC) on the bus, every supported sensor has an index (unless there are more than max), and the return code is the documented one: 0 if a sensor was found, 4 without devices.", "quantifier": "every set of devices on the bus, every max, every previous content of the object", "why_tests_cant": "all sets of ROM codes", "anchors": ["sblib/src/sensors/ds18x20.cpp:Search", "sblib/src/onewire.cpp:OneWireSearch", "sblib/src/onewire.cpp:OneWireCRC8"]}
{"id": "C61", "title": "Temperatures read from DS18x20 sensors", "statement": "readResult for an index succeeds only after a conversion was started for it and the conversion time is over, and then temperature() is the value the data sheet defines for the scratchpad of that sensor (resolution bits of DS18B20/DS1822, count-remain formula of DS18S20), if it is within -55..125 degrees, otherwise the previous value with lastReadOk() false; other sensors are not affected; startConversionAll/readResultAll do this for every sensor found.", "quantifier": "every scratchpad content (DS18S20: register between -1020 and 1020 degrees), every list of sensors, every start and read time", "why_tests_cant": "all scratchpad contents and times", "anchors": ["sblib/src/sensors/ds18x20.cpp:startConversion", "sblib/src/sensors/ds18x20.cpp:readResult", "sblib/src/sensors/ds18x20.cpp:readResultAll"]}
{"id": "C62", "title": "Restart on request", "statement": "The processor is reset only after a telegram whose service was executed asked for it (A_Restart, or master reset with erase code 1 to 7), at least 250 ms later, and into the bootloader exactly if that was asked for. Once asked for, the first loop with a free bus sends a T_DISCONNECT to the partner if the request came over a connection, and the first later loop with a free bus after 250 ms resets; unsaved EEPROM contents and virtual memory are written to flash before. The answer to a master reset is positive exactly if the device will restart.", "quantifier": "every device type and memory, every history of loops, telegrams, transmissions, interrupts and times since the start", "why_tests_cant": "all histories and interleavings with the bus interrupt", "anchors": ["sblib/src/eib/bcu_base.cpp:loop", "sblib/src/eib/bcu_base.cpp:scheduleRestart", "sblib/src/eib/bcu_base.cpp:softSystemReset", "sblib/src/eib/bcu_default.cpp:softSystemReset", "sblib/src/eib/bcu_default.cpp:processApciMasterResetPDU"]}
{"id": "C63", "title": "Programming button", "statement": "Pressing the programming button switches the programming mode once per press: a loop that executes no memory write changes the mode exactly if the debounced pin falls; then the pin was low for at least 50 ms, and high for at least 50 ms since the previous press; a press of 50 ms is noticed. setProgrammingMode sets the mode it is given. The LED shows the mode after every loop; the other status bits and the parity of the status byte are kept, and nothing else but a memory write changes the status byte.", "quantifier": "every history of loops, pin levels, telegrams and times since the start", "why_tests_cant": "all schedules and bouncing patterns", "anchors": ["sblib/src/eib/bcu_base.cpp:loop", "sblib/src/eib/bcu_base.cpp:setProgrammingMode", "sblib/src/debounce.cpp:debounce"]}
{"id": "C64", "title": "Group objects of a System B device", "statement": "On a System B device the group objects have separate values; objectRead returns what objectWrite, objectUpdate, objectSetValue or a received telegram stored; a received value is stored in exactly the writable objects associated with its address; a read request is answered by exactly the readable ones, with their current values; nextUpdatedObject reports the updated objects and written objects are sent.", "quantifier": "every configuration that fits the device, every memory content, object, value and telegram", "why_tests_cant": "all table contents, object sizes and telegrams", "anchors": ["sblib/src/eib/com_objectsSYSTEMB.cpp:processGroupTelegram", "sblib/src/eib/com_objectsSYSTEMB.cpp:objectValuePtr", "sblib/src/eib/com_objectsSYSTEMB.cpp:objectSize", "sblib/src/eib/com_objectsSYSTEMB.cpp:objectFlagsTable", "sblib/src/eib/addr_tablesSYSTEMB.cpp:indexOfAddr", "sblib/src/eib/com_objects.cpp:objectCount"]}
{"id": "C65", "title": "Replacing the bootloader", "statement": "When the bootloader updater has run to its end, the new bootloader is installed: byte for byte the image linked into the updater, with the vector checksum the ROM asks for, and nothing above the replaced sectors has changed; the device then stays in the new bootloader. If a flash operation fails or the power is lost on the way, the ROM does not start an incomplete bootloader.", "quantifier": "every image, flash content, place of the image, flash size, failing flash operation and moment of power loss", "why_tests_cant": "all image sizes relative to the sector size, and all points of interruption", "anchors": ["firmware_updater/bootloaderupdater/src/app_main.cpp:main", "sblib/src/iap.cpp:iapProgram", "sblib/src/iap.cpp:iapEraseSectorRange", "firmware_updater/bootloader/src/boot_descriptor_block.cpp:checkVectorTable", "firmware_updater/bootloader/src/bootloader.cpp:startup"]}
{"id": "C66", "title": "SPI transfers", "statement": "An SPI transfer exchanges words with the slave: transfer returns the word the slave shifts out while the value is shifted in, and transferBlock (synchronous, or asynchronous with finalizeBlockTransfer after it) sends exactly the words of the block in order and delivers the slave's answers in order, on either port; every call returns as long as the clock runs. When finished is set, every word has been handed to the controller. setDataSize and setClockDivider change only their own field.", "quantifier": "every slave, block of words, timing of the frames and interrupts relative to the program, and state of an idle controller", "why_tests_cant": "all interleavings of the hardware with the program, all slaves and block lengths", "anchors": ["sblib/src/spi.cpp:transfer", "sblib/src/spi.cpp:transferBlock", "sblib/src/spi.cpp:continueBlockTransfer", "sblib/src/spi.cpp:finalizeBlockTransfer", "sblib/src/spi.cpp:setClockDivider", "sblib/src/spi.cpp:setDataSize"]}
{"id": "C67", "title": "What one loop does", "statement": "loop() looks at a received telegram only while nothing is being sent, neither a telegram nor an acknowledge frame, and while the transport layer is switched on in the system status; otherwise the telegram stays untouched for a later loop. If these conditions hold, the telegram is processed in this very loop. A group telegram the communication objects want to send is sent only while the application runs and nothing is being sent, and then at once. loop() never waits for a transmission to finish.", "quantifier": "every history of telegrams, button states, time steps, application calls and transmission ends, also ends that interrupt the loop between two statements", "why_tests_cant": "all interleavings of transmissions with the loop and all histories before it", "anchors": ["sblib/src/eib/bcu_base.cpp:loop", "sblib/src/eib/bcu_default.cpp:loop", "sblib/src/eib/knx_tlayer4.cpp:acquireSendBuffer", "sblib/inc/sblib/eib/bus.h:sendingFrame"]}
{"id": "C68", "title": "What is configured survives a power failure", "statement": "Whatever a configuration tool has changed in the device (EEPROM by memory or property services, load states, individual address, virtual memory) is in flash after the first loop that ends without an open connection and finds the bus free, and before any reset of the device. The flash is not written while a connection is open, except before a reset.", "quantifier": "every history of telegrams, loops, interrupts, application calls and time steps, and every moment of power loss between the events", "why_tests_cant": "all histories of services and all moments of power loss", "anchors": ["sblib/src/eib/bcu_default.cpp:loop", "sblib/src/eib/bcu_default.cpp:flushUserMemory", "sblib/src/eib/bcu_default.cpp:softSystemReset", "sblib/src/eib/userEeprom.cpp:writeUserEeprom", "sblib/src/mem_mapper.cpp:doFlash", "sblib/src/eib/propertiesBCU2.cpp:propertyValueWriteTelegram"]}
{"id": "C69", "title": "How a device starts", "statement": "After power-on or reset, begin() restores the configuration from the saved image: every byte of the EEPROM is as saved except those the program sets itself (manufacturer, device type, version, serial number, library version, fixed communication object table), which have the values given by the program; the device has its saved individual address (15.15.255 if it was 0.0.0), is not in programming mode, has no connection open and no restart pending. The application runs after the start exactly if it was completely loaded, in particular not after an interrupted download. Over a whole life with any number of power failures, what was saved is there after the next start.", "quantifier": "every image, all arguments of begin(), every history of telegrams, loops, interrupts and power failures between the events", "why_tests_cant": "all images and all interleavings of configuration with power failures", "anchors": ["sblib/src/eib/bcu_default.cpp:begin", "sblib/src/eib/bcu_default.cpp:_begin", "sblib/src/eib/bcu1.cpp:begin", "sblib/src/eib/bcu2.cpp:begin", "sblib/src/eib/bcu2.cpp:setOwnAddress", "sblib/src/eib/userEeprom.cpp:readUserEeprom"]}
{"id": "C70", "title": "I2C master transfers", "statement": "Each of Chip_I2C_MasterSend, MasterRead, MasterCmdRead and MasterWriteRead returns, whatever the slaves do, after putting on the bus exactly one well-formed I2C transaction: START, address, the bytes in order, where data are to be read after data written a repeated START and the address again, every byte read but the last acknowledged, STOP; it stops at the first refused byte. What is stored are exactly the bytes the slave sent, in order and never beyond the size given; the result is the number of bytes successfully transferred; the controller is ready for the next call. A lost arbitration repeats the whole message. Chip_I2C_SetClockRate gives the nearest possible rate not below the one asked for.", "quantifier": "every behaviour of the slaves and of other masters, address, message, number of bytes to read, history of the bus before the call, clock and rate", "why_tests_cant": "all slave behaviours (refusing any byte, any data), all lengths, all bus faults and all positions of a lost arbitration", "anchors": ["sblib/src/i2c.cpp:handleMasterXferState", "sblib/src/i2c.cpp:Chip_I2C_MasterTransfer", "sblib/src/i2c.cpp:Chip_I2C_MasterSend", "sblib/src/i2c.cpp:Chip_I2C_MasterRead", "sblib/src/i2c.cpp:Chip_I2C_MasterCmdRead", "sblib/src/i2c.cpp:Chip_I2C_MasterWriteRead", "sblib/src/i2c.cpp:Chip_I2C_SetClockRate"]}
{"id": "C71", "title": "Values from sensors on the I2C bus", "statement": "The drivers of the I2C sensors return a value exactly if the sensor answered completely, within the driver's time limit where it repeats the reading, and every checksum in the answer is right; the value is the one in the answer, and otherwise the failure is reported and the last values are unchanged. The commands put on the bus are those asked for, with right checksums. A driver's configuration calls report success exactly if the sensor accepted the configuration. Conversions of temperatures and humidities are the data sheet's formulas, rounded down. (SHT4x, SHT2x, SGP4x, CCS811, BH1750.)", "quantifier": "every behaviour of the sensor and of the bus, every passing of time, all arguments and states of the driver", "why_tests_cant": "all sensor behaviours (refusing, wrong checksums, late answers) combined with all times including the wrap of the millisecond counter", "anchors": ["sblib/src/i2c/SHT4x.cpp:readSensor", "sblib/src/i2c/SHT2x.cpp:readSensor", "sblib/src/i2c/SGP4x.cpp:readSensor", "sblib/src/i2c/SGP4x.cpp:getSerialnumber", "sblib/src/i2c/CCS811.cpp:getData", "sblib/src/i2c/CCS811.cpp:getBaseline", "sblib/src/i2c/bh1750.cpp:configure", "sblib/src/i2c/bh1750.cpp:setMTreg", "sblib/src/i2c/bh1750.cpp:measurementReady", "sblib/src/i2c/bh1750.cpp:readLightLevel"]}
{"id": "C72", "title": "Delays", "statement": "delayMicroseconds(usec), up to 4000, returns; not before usec - 2 microseconds have passed, however it is interrupted, and late by no more than one gap between two of its readings of the timer and one clock per millisecond (if no gap is a millisecond). Above 4000 it stops the device with a fatal error. delay(msec) returns, not before msec - 1 milliseconds have passed, and late by no more than the gaps between its readings; with SysTick off it stops the device with a fatal error instead of waiting forever. Inside an interrupt it waits all the same.", "quantifier": "every schedule of interruptions (any increasing times of the readings of the timer), every phase of the timer, all arguments, every clock", "why_tests_cant": "all interleavings of interrupts with the readings, including the restart of the timer between two readings", "anchors": ["sblib/src/timer.cpp:delay", "sblib/src/timer.cpp:delayMicroseconds"]}
{"id": "C73", "title": "Configuration of the timers", "statement": "What is configured for one channel of a timer (match mode, capture mode, PWM, acknowledging an event) is what is read back and what the registers of the chip mean, and leaves the other channels, the levels of the outputs and other timers unchanged. counterMode selects the input and edges asked for, and clears the timer at the edge of the input asked for.", "quantifier": "all contents of the registers, all channels, all modes", "why_tests_cant": "all contents of the registers times all modes", "anchors": ["sblib/src/timer.cpp:Timer::matchMode", "sblib/src/timer.cpp:Timer::captureMode", "sblib/src/timer.cpp:Timer::counterMode", "sblib/src/timer.cpp:Timer::begin", "sblib/inc/sblib/timer.h:Timer::resetFlag", "sblib/inc/sblib/timer.h:Timer::pwmEnable"]}
{"id": "C74", "title": "Configuration of the pins", "statement": "pinMode gives a pin the function, direction and options asked for, routes the function to this pin if several pins can have it, and stops the device with a fatal error if the pin does not have the function; no other pin changes its configuration, direction or value. pinDirection, digitalWrite, digitalRead, pinInterruptMode and enabling or disabling a pin's interrupt affect this pin alone and do what they say. portMode gives the pins of the mask the mode asked for, as pinMode would, and changes no other pin.", "quantifier": "all 42 pins, all functions and uses, all options, all states of all registers, all masks", "why_tests_cant": "all states of the registers times all pins, functions and modes", "anchors": ["sblib/src/lpc11xx/digital_pin.cpp:pinMode", "sblib/src/lpc11xx/digital_pin.cpp:pinDirection", "sblib/src/lpc11xx/digital_pin.cpp:pinInterruptMode", "sblib/src/lpc11xx/digital_pin_port.cpp:portMode", "sblib/src/ioports.cpp:getPinFunctionNumber", "sblib/inc/sblib/digital_pin.h:digitalWrite", "sblib/inc/sblib/digital_pin.h:digitalRead", "sblib/src/lpc11xx/platform.cpp:ioconPointer"]}
{"id": "C75", "title": "A pulse is measured and a DHT sensor read as it was on the line, or not at all", "statement": "pulseIn returns the length of the first whole pulse of the requested level, or 0 if there was none within the time limit. DHT::readData returns true only if the sensor answered with 40 bits whose last byte is the sum of the others; temperature and humidity are then the numbers those bits mean (a bit is one if its high part is longer than its low part), and in every other case they keep their previous values and a reason is set. It refuses a reading earlier than 2 s after the last one unless forced, and leaves the interrupt of the pin as it was.", "quantifier": "every sequence of levels read on the pin, every message, every speed of the processor, every time since the last reading, both sensor types", "why_tests_cant": "The result depends on the length of 80 parts of a signal compared with each other and with the processor's speed; a test has one recorded signal.", "anchors": ["sblib/src/lpc11xx/digital_pin_pulse.cpp:pulseIn", "sblib/src/sensors/dht.cpp:DHT::DHTInit,readData,expectPulse"]}
{"id": "C76", "title": "Bits and bytes on the 1-Wire line are the ones given, with the timing of the data sheet", "statement": "OneWireWriteBytes, OneWireWrite, OneWireSelect and OneWireSkip put exactly the bits of the bytes on the line, lowest bit first, in slots whose timing makes every device see those bits; OneWireReadBytes makes slots in which devices can answer and returns the bytes they send; OneWireReset returns true if and only if a device answers the reset pulse, and false without a pulse if the line is held low. Interrupts of the processor do not change what is sent or read, and the interrupt of the pin is left as it was.", "quantifier": "every byte sequence of any length, every state before, every behaviour of the line, every duration of each single delay", "why_tests_cant": "The timing depends on when interrupts hit any of several hundred delays; a test sees one run.", "anchors": ["sblib/src/onewire.cpp:OneWireReset,OneWireWriteBit,OneWireReadBit,OneWireWrite,OneWireWriteBytes,OneWireRead,OneWireReadBytes,OneWireSelect,OneWireSkip,OneWireDePower"]}
{"id": "C77", "title": "The serial port has the speed and format asked for, and flush waits until all is sent", "statement": "Serial::begin sets the format its SerialConfig argument names and the bit rate asked for within 2 %, whatever was configured before. Serial::flush returns only when every byte written has been sent, and Serial::end loses none.", "quantifier": "every bit rate and every format, every state of the registers before; every interleaving of write calls, the interrupt handler and the UART", "why_tests_cant": "The rate depends on an integer division and on registers left by earlier calls; flush on the schedule of the interrupt and the UART.", "anchors": ["sblib/src/serial.cpp:Serial::begin,Serial::end,Serial::flush", "sblib/inc/sblib/serial.h:SerialConfig"]}
{"id": "C78", "title": "An analog read returns the result of one conversion of the channel asked for", "statement": "After analogBegin the converter is powered and clocked with at most 4.5 MHz. analogRead and analogValidRead start exactly one conversion, of the channel given alone, and return its ten-bit result (analogValidRead: -1 if the result is not valid), any number of times in any order of channels. analogEnd switches the converter off.", "quantifier": "every channel, every sequence of reads, every behaviour of the data registers, every clock", "why_tests_cant": "The number of polls and the values seen are up to the hardware; sequences of reads are unbounded.", "anchors": ["sblib/src/analog_pin.cpp:analogBegin,analogEnd,analogPoll,analogRead,analogValidRead"]}
{"id": "C79", "title": "indexOf returns the first index of the value within the first count elements", "statement": "indexOf returns the least index below count whose element equals the value, and -1 if there is none; it reads no element at or behind count, also if count is 0 or negative.", "quantifier": "every element type it is declared for, every array, every value, every count (16 bits, signed)", "why_tests_cant": "Arrays and counts are unbounded for a test; absence of out-of-range reads is a claim about all of them.", "anchors": ["sblib/src/arrays.cpp:indexOf"]}
{"id": "C80", "title": "A differential update turns the old application into the new one", "statement": "For every pair of images: the telegrams the update tool computes from the old and the new image, sent in order to an unlocked device whose flash holds the old image, are all acknowledged, and afterwards the flash holds the new image from the start of the application on, while nothing outside the pages of the new image has changed.", "quantifier": "all old and new images (any lengths that fit the application area), all devices and layouts, all histories of the device before the update that did not touch the decompressor", "why_tests_cant": "The tool searches the longest common runs and keeps its own copy of what flash and page window of the device hold page by page; whether both sides agree depends on the whole contents of both images, which tests can only sample.", "anchors": ["firmware_updater/updater/source/src/main/java/org/selfbus/updater/tests/flashdiff/FlashDiff.java: generateDiff, letLongestCommonBytes, possiblyFinishRawBuffer", "firmware_updater/updater/source/src/main/java/org/selfbus/updater/tests/flashdiff/OldWindow.java: fillNextPage", "firmware_updater/updater/source/src/main/java/org/selfbus/updater/FlashDiffMode.java: doDifferentialFlash", "firmware_updater/bootloader/src/decompressor.cpp: putByte, pageCompletedDoFlash"]}
{"id": "C81", "title": "A full update that the tool reports as finished is an update of the device", "statement": "Whatever telegrams between update tool and device are lost and whatever flash operations fail: if the tool ends a full update without an error, then the device starts the new image at its start address at the next power-up, and the flash holds the new image. If no telegram is lost and the flash works, the tool does end without an error, from every state an earlier, broken-off update can have left behind; single lost telegrams are made up for by repetition.", "quantifier": "all images and start addresses, all block sizes, all patterns of lost requests and lost answers, all patterns of flash faults, all earlier conversations with the device", "why_tests_cant": "A loss can hit any of the thousands of telegrams, before or after the device executed the request, and every combination leads to another sequence of repetitions on the tool's side and another buffer content on the device's side.", "anchors": ["firmware_updater/updater/source/src/main/java/org/selfbus/updater/FlashFullMode.java: doFullFlash", "firmware_updater/updater/source/src/main/java/org/selfbus/updater/DeviceManagement.java: sendWithRetry, doFlash, programBootDescriptor, eraseAddressRange, unlockDeviceWithUID", "firmware_updater/updater/source/src/main/java/org/selfbus/updater/Updater.java", "firmware_updater/bootloader/src/update.cpp: updSendData, updProgram, updUpdateBootDescriptorBlock"]}
{"id": "C82", "title": "The update tool flashes what the hex file says", "statement": "From every Intel HEX file whose lines are well-formed records ending with the end of file record, the update tool reads an image that reaches from the lowest to the highest address the file gives a byte for, with the file's bytes at their addresses and 0xFF between them; and after a loss-free update the device holds each of these bytes at its address and starts at the lowest one. A file with an incomplete line, a wrong checksum or length, an unknown record, no end record or anything after it is refused, and replacing any single character of a file leads to a refusal or to the same image.", "quantifier": "all files (any number and order of records, both digit cases, all line ends, empty lines, all kinds of base address records), all damages of one character, all devices and earlier conversations", "why_tests_cant": "There are unboundedly many files; record order, bases, gaps, overlaps and damage combine freely, and tests use the files a compiler happens to produce.", "anchors": ["firmware_updater/updater/source/src/main/java/cz/jaybee/intelhex/Parser.java: parse, parseRecord, processRecord", "firmware_updater/updater/source/src/main/java/cz/jaybee/intelhex/MemoryRegions.java: add, compact, getFullRangeRegion", "firmware_updater/updater/source/src/main/java/cz/jaybee/intelhex/listeners/BinWriter.java: data", "firmware_updater/updater/source/src/main/java/cz/jaybee/intelhex/listeners/RangeDetector.java", "firmware_updater/updater/source/src/main/java/org/selfbus/updater/BinImage.java: readFromHex"]}
{"id": "C83", "title": "A flash dump of the bootloader is a hex file of the flash", "statement": "What the bootloader prints when a range of the flash is dumped is a well-formed Intel HEX file, and the update tool's reader gets from it exactly the dumped bytes at their addresses, whatever the bytes, the range and the number of bytes per line.", "quantifier": "all flash contents, all start addresses and lengths, all line lengths from 1 to 255", "why_tests_cant": "The text depends on every byte (checksums) and on where the range is cut into lines; the failure is at a boundary that is only reached by dumping up to the last byte of the largest flash.", "anchors": ["firmware_updater/bootloader/src/intelhex.cpp: dumpToSerialinIntelHex", "firmware_updater/bootloader/src/update.cpp: dumpFlashContent", "sblib/src/print.cpp: print", "firmware_updater/updater/source/src/main/java/org/selfbus/updater/BinImage.java: readFromHex"]}
{"id": "C84", "title": "Of two devices that send at the same time the one with the first zero bit wins, and nothing is lost", "statement": "If two devices begin to send different telegrams at the same time, exactly one of the two telegrams has the first differing bit as a zero. A device that sends this telegram does not notice the other one: it sends all characters with every zero bit at its place, counts no collision and waits for the acknowledgement. A device that sends the other telegram stops at the first differing bit, drives the line no more, receives the winner's telegram completely and hands it to the application if addressed, and keeps its own telegram queued with unchanged retries and repeat flag.", "quantifier": "all histories of the device, all telegrams it sends, all winning telegrams, every character and bit in which they can first differ, all edge times within the tolerances, own and foreign edges in any combination", "why_tests_cant": "The collision can be in any bit of any character and the bits received so far must be reconstructed from the device's own telegram, down to parity, check octet and byte index; a test would need two devices synchronised to microseconds for every pair of telegrams.", "anchors": ["sblib/src/eib/bus.cpp: timerInterruptHandler (states SEND_START_BIT, SEND_BIT_0, SEND_BITS_OF_BYTE, SEND_END_OF_BYTE, SEND_END_OF_TX, RECV_BITS_OF_BYTE)", "sblib/src/eib/bus.cpp: encounteredCollision, handleTelegram"]}
{"id": "C85", "title": "Over a lossy line the partner's application gets a telegram at most once, and success means that it got it", "statement": "A device sends a telegram to another one and repeats it when no acknowledgement comes. As long as the line only loses or detectably damages frames and acknowledgements, and nobody else's telegrams reach the partner meanwhile, the partner's application gets the telegram at most once (in its first form or with the repeat flag cleared) and gets nothing else, however many repetitions arrive. If the sender is told that the telegram was sent, then the partner's application got it exactly once.", "quantifier": "all histories of both devices, all telegrams, all interleavings of all interrupts and calls of both devices until the sender accepts its next telegram, all patterns of loss and damage", "why_tests_cant": "Frames and acknowledgements can be lost or damaged in any pattern, at any point of any of the repetitions, after any history of both devices, and the two devices' interrupts interleave freely; each pattern would need its own test on two synchronised devices.", "anchors": ["sblib/src/eib/bus.cpp: timerInterruptHandler, handleTelegram, prepareForSending, finishSendingTelegram", "sblib/src/eib/bus.cpp: sendTelegram, prepareTelegram"]}
{"id": "C86", "title": "A value written on one device arrives at the linked objects of another device", "statement": "The application of one device calls objectWrite(j, v). If the telegram goes out over a line that may lose frames and acknowledgements and the device is told that it was sent, then, when the other device processes the telegram it received, objectRead returns v (reduced to the size of the object) for every writable object of the same type that is associated there with the group address under which j sends, nextUpdatedObject reports this object, and no other object, flag or byte of the memory changes.", "quantifier": "all kinds and configurations of both devices, all objects and values, all histories of both link layers, all interleavings and losses", "why_tests_cant": "It is a statement about two applications, two configurations, two link layers and a lossy line together: every value, every object type, every pair of configurations, every history of both devices and every pattern of losses; tests of the single layers do not show that the layers fit together.", "anchors": ["sblib/src/eib/com_objects.cpp: objectWrite, sendNextGroupTelegram, sendGroupWriteTelegram, objectRead, nextUpdatedObject", "sblib/src/eib/com_objectsBCU1.cpp: processGroupTelegram", "sblib/src/eib/knx_tlayer4.cpp: sendPreparedTelegram", "sblib/src/eib/bus.cpp: timerInterruptHandler, handleTelegram, sendTelegram"]}
{"id": "C87", "title": "Handover between bootloader and application", "statement": "After a restart the bootloader runs exactly if the restart asked for it (master reset into the bootloader), or the programming button is held, or no complete application is installed; a request is thus honoured exactly once. Otherwise the application runs: from its reset vector, with the stack pointer it names, with its own 192 bytes of interrupt vectors in RAM, the rest of the RAM and the flash untouched. After power-on the same holds without a request, unless the RAM happens to contain the magic word.", "quantifier": "all flash contents, all histories of power-ons, restarts and downloads, all RAM contents at power-on, for applications whose initial stack pointer points into the RAM and which leave the reserved RAM alone", "why_tests_cant": "The question is what the chip does after any history of power-ons, restarts, downloads and requests; a test exercises a few of them on one image, and a leftover magic word shows only after a particular sequence.", "anchors": ["firmware_updater/bootloader/src/bootloader.cpp: startup, jumpToApplication", "sblib/src/eib/bcu_base.cpp: BcuBase::softSystemReset", "firmware_updater/bootloader/src/boot_descriptor_block.cpp: checkApplication"]}
{"id": "C88", "title": "What a configuration tool has written is there after the restart", "statement": "Each byte of the user EEPROM holds the last byte that an executed memory write put there, and what it held before if none did; nothing else that arrives or happens changes it. After a restart the device requested, or a power failure when nothing is marked as modified, it still does, except where the start itself writes.", "quantifier": "all kinds of BCU, all histories of telegrams, loops, interrupts and restarts, all contents of the memory, all bytes of the EEPROM", "why_tests_cant": "The claim is about every download: any number of connections and telegrams, in any order, with repetitions, lost acknowledges, interruptions by other telegrams and resets in between. A test follows one of them.", "anchors": ["sblib/src/eib/bcu_default.cpp: processApciMemoryOperation, processApciMemoryWritePDU, flushUserMemory, softSystemReset", "sblib/src/eib/mask0701.cpp: processApciMemoryWritePDU", "sblib/src/eib/knx_tlayer4.cpp: processTelegram", "sblib/src/eib/bcu_base.cpp: loop", "sblib/src/eib/bcu2.cpp: begin"]}
{"id": "C89", "title": "The device as I2C slave", "statement": "A program sets up to four I2C slaves and one for general calls. At every point of every history the device answers exactly the addresses set up, masks included, and the first slave with the address serves the call. Its receive buffer gets exactly the bytes acknowledged to the master, in order, and the program is told of each; it takes as many bytes as it has. A master that reads gets the bytes of the transmit buffer one after the other, then 0xff. Nothing outside the buffers is read or written, and slaves that are not called are not touched.", "quantifier": "all sets of slaves, addresses, masks and buffers, all histories of calls, bytes, repeated STARTs and STOPs of any master, all acknowledges of the master", "why_tests_cant": "Masters may call any address at any time, break off, repeat and mix transfers to several slaves; the driver's buffers move on with every one. The claim is about every such history, a test runs one of them.", "anchors": ["sblib/src/i2c.cpp: Chip_I2C_SlaveSetup, Chip_I2C_SlaveStateHandler, handleSlaveXferState, getSlaveIndex, lookupSlaveIndex, isSlaveAddrMatching, setSlaveAddr, startSlaverXfer", "sblib/inc/sblib/i2c.h: Chip_I2C_SlaveSetup"]}
{"id": "C90", "title": "The DS2482 bridge does on the 1-Wire line what was asked for", "statement": "For every sequence of calls of the bridge object, the line sees exactly the resets, bytes and bits asked for, each once and in order, followed by the strong pull-up where it was asked for and never after a reset; values returned are those the devices gave to that very action; an error is reported for a short circuit and for nothing else. deviceReset resets the chip.", "quantifier": "all sequences of calls, all bytes and ROM numbers, all times the line is busy after each command, all answers of the devices, all states of the chip at the beginning", "why_tests_cant": "How long the line is busy after each command and what the devices answer differs from run to run; the claim is about every order of calls with every such timing. A test sees one chip with one timing.", "anchors": ["sblib/src/i2c/ds2482.cpp: waitOnBusy, writeConfig, setStrongPullup, clearStrongPullup, setActivePullup, clearActivePullup, wireReset, wireWriteByte, wireWriteCmdAndData, wireReadByte, wireWriteBit, wireReadBit, wireSkip, wireSelect, deviceReset"]}
{"id": "C91", "title": "Asking for a value gets the value of the other device", "statement": "The application of one device calls requestObjectRead(j). If the request and the answer go out over a line that may lose frames and acknowledgements and both devices are told that their telegram was sent, then objectRead on the asking device returns what objectRead returns for the object of the other device that answers for the group address: for every writable object of the same type on this address (so for j itself), and nextUpdatedObject reports it. No other object of the asking device changes, nor does the object that was asked for.", "quantifier": "all kinds and configurations of both devices in which one readable object belongs to the group address, all values, all histories of both link layers, all interleavings and losses, everything the asking device does before the answer arrives", "why_tests_cant": "Two applications, two configurations, two link layers and a lossy line in both directions take part; the claim is about every value, type, pair of configurations, history and pattern of losses. Tests of the single layers do not show that they fit together.", "anchors": ["sblib/src/eib/com_objects.cpp: requestObjectRead, sendNextGroupTelegram, sendGroupReadTelegram, sendGroupWriteTelegram, objectRead, nextUpdatedObject", "sblib/src/eib/com_objectsBCU1.cpp: processGroupTelegram", "sblib/src/eib/knx_tlayer4.cpp: sendPreparedTelegram", "sblib/src/eib/bus.cpp: timerInterruptHandler, handleTelegram, sendTelegram"]}
{"id": "C92", "title": "The timers of two devices fit together: frames stay whole and the acknowledge meets its window", "statement": "A device sends its telegram to another device that uses this library, and nobody else sends. The receiving device's timer never takes a pause between two characters for the end of the frame, takes the end of the frame as such, and hands exactly the frame to its upper layer. It then sends the acknowledge at a moment at which the sending device has its acknowledge window open. The sending device reports success to its upper layer. This holds for every telegram, every state in which the two devices can be when the telegram begins (the receiver idle or in its pause, with an empty receive buffer and more than 200 us left on its timer), and for two clocks that differ by any offset, as long as each bit is captured within 25 us of its place in its character, each start bit within 25 us of its place after the one before, and the acknowledge within 104 us of its place.", "quantifier": "for every history of both devices, every telegram, every capture deviation of every edge within the tolerances, every clock offset and every handler latency up to 200 us", "why_tests_cant": "the deadlines sit in constants and timer writes of two devices, and a test runs with one clock", "anchors": ["sblib/src/eib/bus.cpp: Bus::timerInterruptHandler, Bus::handleTelegram", "sblib/inc/sblib/eib/bus_const.h: MAX_INTER_CHAR_TIME, ACK_WAIT_TIME_MIN, ACK_WAIT_TIME_MAX, PRE_SEND_TIME"]}
{"id": "C93", "title": "A device starts to send only after the line was quiet for 50 bit times", "statement": "Whatever happened before (edges on the line at any time, frames, garbage, collisions, own transmissions, pause and resume, calls of the upper layer at any time): when the device begins to send a telegram, the start bit comes at least 50 bit times after the last falling edge it was told about, and at least 53 bit times if the telegram has normal or low priority and is not a repetition. When it begins to send an acknowledge, the start bit comes at least 15 bit times after that edge. Both hold up to the latency of the interrupt handler and one microsecond.", "quantifier": "for every history of timer interrupts, falling edges and calls from the start of the device, at any times, with both timer flags possibly set, and every bound on the handler's latency", "why_tests_cant": "the waiting times are kept in one timer that is restarted, reloaded and rewritten in fourteen states", "anchors": ["sblib/src/eib/bus.cpp: Bus::timerInterruptHandler, Bus::handleTelegram, Bus::initState, Bus::startSendingImmediately", "sblib/inc/sblib/eib/bus_const.h: SEND_WAIT_TIME, PRE_SEND_TIME"]}
{"id": "C94", "title": "The gas index is 0 during the blackout and 1 to 500 afterwards", "statement": "For every history of init_with_sampling_interval (1 to 10 whole seconds), reset, set_states, set_tuning_parameters (arguments in the ranges of the header) and process (any raw values): process returns 0 as long as the measurements since the last init or reset cover at most 45 s, and a value from 1 to 500 afterwards. No division by zero and no root of a negative number happens, so the states that get_states hands out are always numbers and the deviation is not negative.", "quantifier": "for every history of calls, every raw value, both algorithm types and every float rounding mode", "why_tests_cant": "the index depends on the whole history of raw values and on every rounding in it; a test follows a few recorded curves", "anchors": ["sblib/src/i2c/sensirion_gas_index_algorithm.cpp: GasIndexAlgorithm_process, GasIndexAlgorithm__mean_variance_estimator__process, GasIndexAlgorithm__sigmoid_scaled__process, GasIndexAlgorithm__adaptive_lowpass__process", "sblib/inc/sblib/i2c/sensirion_gas_index_algorithm.h: GasIndexAlgorithm_process"]}
{"id": "C95", "title": "Tuning parameters, states and interval of the gas index algorithm are handed out as set", "statement": "get_tuning_parameters returns what set_tuning_parameters set, whatever is called in between except init and set_tuning_parameters (in particular after reset), and the defaults of the header after init. get_states returns exactly the states given to set_states directly after init, reset or set_tuning_parameters. get_sampling_interval returns the interval of the last init.", "quantifier": "for every history of calls before and in between, every allowed value and every float rounding mode", "why_tests_cant": "a test compares a few values after a few calls; the claim is about every history", "anchors": ["sblib/src/i2c/sensirion_gas_index_algorithm.cpp: GasIndexAlgorithm_get_tuning_parameters, GasIndexAlgorithm_set_tuning_parameters, GasIndexAlgorithm_get_states, GasIndexAlgorithm_set_states, GasIndexAlgorithm_reset"]}
{"id": "C96", "title": "Typical conditions give the index offset", "statement": "After any allowed history, when the algorithm is resumed by reset and set_states with a mean from 1 to 32767 and any deviation, the first measurement after the blackout returns exactly the index offset set by the tuning parameters (by default 100 for VOC, 1 for NOx), if its raw value lies that mean above the smallest raw value of the sensor (20000 for VOC, 10000 for NOx).", "quantifier": "for every history before, every mean, deviation, tuning, sampling interval of 1 to 10 s, both algorithm types, any raw values during the blackout, every float rounding mode", "why_tests_cant": "250 offsets, 32767 means and all deviations, intervals and gains would have to be tried", "anchors": ["sblib/src/i2c/sensirion_gas_index_algorithm.cpp: GasIndexAlgorithm_process, GasIndexAlgorithm__mox_model__process, GasIndexAlgorithm__sigmoid_scaled__process", "sblib/inc/sblib/i2c/sensirion_gas_index_algorithm.h: GasIndexAlgorithm_set_tuning_parameters"]}
{"id": "C97", "title": "The mean the gas index algorithm learns stays within the measured values", "statement": "After init, reset or set_tuning_parameters, if all raw values measured since lie between two bounds (within the range of the sensor), the mean handed out by get_states lies between these bounds, up to 1/64, as soon as one value was measured after the blackout and however long the algorithm goes on. If it is resumed by set_states with a mean between the bounds, this holds from the start.", "quantifier": "for every history before, every number of measurements, all raw values within the bounds, tuning, sampling interval of 1 to 10 s, both algorithm types and every float rounding mode", "why_tests_cant": "rounding errors could add up over years of measurements; a test runs for a few hundred steps", "anchors": ["sblib/src/i2c/sensirion_gas_index_algorithm.cpp: GasIndexAlgorithm__mean_variance_estimator__process, GasIndexAlgorithm__mean_variance_estimator___calculate_gamma, GasIndexAlgorithm_get_states"]}
{"id": "C98", "title": "What is printed on the graphical display appears where it was placed", "statement": "After begin the display is on, and after every sequence of pos, inverse, write, print and clear it shows what these calls do on a canvas: clear empties the visible part and goes to the top left, pos moves to a column and page, and each character of a printed text the font has puts its columns there, one after the other, the others put nothing. A text that fits behind its position appears there and changes no other pixel, and print returns how many characters were drawn. No byte outside the font data is read. In font_5x7 every character from 32 to 127 has a shape of its own.", "quantifier": "for every font of the announced size, every display content and state at power-on, every sequence of calls with positions of at most 131 / 7, and every text", "why_tests_cant": "each call only sends bytes to the display, the picture depends on all bytes ever sent", "anchors": ["sblib/src/lcd/graphical_eadogs.cpp: LcdGraphicalEADOGS::begin, pos, inverse, write, clear", "sblib/src/lcd/font.cpp: Font::data", "sblib/src/lcd/font_5x7.cpp: font_5x7", "sblib/src/print.cpp: Print::write"]}
{"id": "C99", "title": "An SHT1x sensor is read correctly over its two wires", "statement": "With a sensor as in its data sheet on the pins, every history of readTemperatureC, readTemperatureF, readHumidity, GetTemperature, GetHumidity, setStatusRegister and softReset succeeds call by call: each temperature is computed from the next temperature the sensor measured, each humidity from the next measured humidity and the temperature measured just before it, getLastTemperature and getLastHumidity belong to the last measurement, and the status register of the sensor is the low byte written last. Without a sensor every call reports an error.", "quantifier": "for every history of calls, all measured values of 14 and 12 bit, measuring times up to 320 ms, times for which DATA stays low after a command, real durations of the delays, check bytes, and states of the pins at the start", "why_tests_cant": "the order of all edges on the two lines and the waiting times decide what the sensor understands; a test has no sensor", "anchors": ["sblib/src/i2c/SHT1x.cpp: SHT1x::sendByteToSHT, waitForResultSHT, getData16SHT, skipCrcSHT, readTemperatureC, readTemperatureF, readHumidity, GetTemperature, GetHumidity, setStatusRegister, getStatusRegister, softReset", "sblib/src/digital_pin_shift.cpp: shiftIn, shiftOut"]}
{"id": "C100", "title": "Measured values are those of the data sheets up to the stated error", "statement": "Computed in binary32, the values handed out are those of the data sheet formulas: SHT1x temperature and humidity, SHT4x temperature and humidity and the conversions to Fahrenheit and Kelvin up to 1/1000, DHT11/DHT22 up to 1/500, DS18x20 exactly, BH1750 up to 1/10 lux. GetTemperature and GetHumidity of the SHT1x give hundredths up to 1.2. The compensation values sent to an SGP4x are within 1.1 ticks, those sent to a CCS811 are the whole part of the temperature and the humidity.", "quantifier": "for every raw value, every rounding mode of binary32, every measurement time register of the BH1750, every temperature and humidity in the range of the chip", "why_tests_cant": "rounding errors of several operations add up differently for each of the raw values, of which there are 2^26 for the humidity alone", "anchors": ["sblib/src/i2c/SHT1x.cpp: readTemperatureC, readTemperatureF, readHumidity, GetTemperature, GetHumidity", "sblib/src/i2c/SHT4x.cpp: convertTicksToCelsius, convertTicksToPercentRH", "sblib/src/sensors/dht.cpp: readData, ConvertTemperature", "sblib/src/sensors/ds18x20.cpp: readTemperature, ConvertTemperature", "sblib/src/i2c/bh1750.cpp: readLightLevel", "sblib/src/i2c/SGP4x.cpp: measureRawSignal", "sblib/src/i2c/CCS811.cpp: compensate"]}
{"id": "C101", "title": "A float is printed as a decimal number next to it", "statement": "print(value, precision) with a precision of at least 1 writes a decimal number: a minus sign if the value is negative, the whole part, a point and exactly min(precision, 7) digits. The number written differs from the value by at most one unit of the last place plus 2^-20. With a precision below 1 only the whole part is written. println adds a line end.", "quantifier": "for every binary32 number below 2^31 in magnitude, every precision, rounding to nearest with any rule for ties", "why_tests_cant": "the digits come from up to seven rounded multiplications; whether one of them carries the fraction to 10^precision, which would print one digit too many, depends on single values out of 2^32", "anchors": ["sblib/src/print.cpp: Print::print(float, int), Print::println(float, int)"]}
{"id": "C102", "title": "The air quality sensor gives the index of exactly the values it measured", "statement": "Every call of an SGP4x object returns after one exchange with the sensor, and its result is what that exchange gave. getVocIndexValue and getNoxIndexValue are the gas index of the raw values received with matching checksums since the last init, each processed once and in order: -1 before the first, 0 during the first 45 seconds, then one of 1 to 500. A call other than init that does not succeed changes nothing.", "quantifier": "for every history of calls, every behaviour of the sensor and every bus fault other than a lost arbitration, and every float arithmetic that keeps the bounds of IEEE 754", "why_tests_cant": "the index depends on the whole history of answers; a failed measurement that still feeds the algorithm, or one that is fed twice, shifts every later index and is seen only at particular faults", "anchors": ["sblib/src/i2c/SGP4x.cpp: SGP4xClass::SGP4xClass, init, executeConditioning, executeSelfTest, measureRawSignal, turnHeaterOffAndReturnToIdle, readFeatureSet, getVocIndexValue, getNoxIndexValue, getRawVocValue, getRawNoxValue, getFeatureSet", "sblib/src/i2c/sensirion_gas_index_algorithm.cpp: GasIndexAlgorithm_process"]}
{"id": "C103", "title": "Linked objects of two devices come into step and stay in step", "statement": "Object j of one device and object i of another are linked: i is associated with the group address under which j sends, may be written and has the same type; nobody else writes to this address or to the value of i, and no other object of the sender writes to j. Over any common history of writes of j, activity of other objects, calls of the group-telegram sender, telegrams of third devices and losses of frames and acknowledgements on the line: whenever the request of j is not pending, and in any case once the sender was called as often as it has objects since the last objectWrite(j, v), objectRead(i) returns v, provided v fits into the type and the device was told success whenever it sent j. This holds also when the receiver drops a telegram because it takes it for a repetition.", "quantifier": "for all kinds and configurations of both devices, all histories of any length of both devices, all values and all patterns of losses", "why_tests_cant": "whether the two devices agree depends on the whole history: which telegram the receiver saw last, which objects were pending, which frames and acknowledgements were lost; duplicate suppression can drop a telegram that the sender counts as delivered, and no finite set of runs shows that this never leaves the two values apart", "anchors": ["sblib/src/eib/com_objects.cpp: objectWrite, sendNextGroupTelegram, sendGroupWriteTelegram, objectRead", "sblib/src/eib/com_objectsBCU1.cpp: processGroupTelegram", "sblib/src/eib/knx_tlayer4.cpp: sendPreparedTelegram", "sblib/src/eib/bus.cpp: timerInterruptHandler, handleTelegram, sendTelegram"]}
{"id": "C104", "title": "One send buffer, used by the main program and the link layer, is enough", "statement": "The library has one send buffer, which the main program acquires, fills and hands to the link layer, and which the interrupt transmits from, marks as a repetition and, from inside the completion report, hands over again if a connection control telegram failed. With interrupts between any two memory accesses of the main program: (a) the main program never writes to the buffer while the link layer has it, and the interrupt never while it has not; (b) what happens on the line and at the interface is what would happen if the link layer got a private copy of each telegram handed over; (c) sendTelegram never has to wait for the previous telegram, and the buffer is free exactly if neither side uses it; (d) a telegram is handed over again only if it is a connection control telegram, at most three times, always the same telegram, and it is given up only after failure was reported for each of the four attempts; (e) with unchanged retry limits R and B a telegram is transmitted at most 4 * max(1, R + B) times until the next one is handed over; (f) on a silent bus the buffer becomes free after finitely many timeouts.", "quantifier": "for all histories of any length of steps of the main program (one memory access each), timer interrupts with any inputs, pause, resume, discard and changes of the retry limits; (f): for all histories in which the retry limits are changed only while the link layer has no telegram", "why_tests_cant": "a race between the main program and the interrupt shows only if the interrupt falls between two particular memory accesses; the hand-over inside the completion report depends on the state the link layer is in and on how often the telegram has failed before", "anchors": ["sblib/src/eib/knx_tlayer4.cpp: acquireSendBuffer, sendPreparedTelegram, finishedSendingTelegram", "sblib/src/eib/bus.cpp: sendTelegram, prepareTelegram, finishSendingTelegram, timerInterruptHandler", "sblib/inc/sblib/eib/knx_tlayer4.h: SendTelegramBufferState, conCtrlRepCount"]}
{"id": "C105", "title": "Dew points", "statement": "The dew point functions of the sensor drivers return the temperature at which the water vapour of the measured air saturates it (by the Magnus formula with the driver's constants). DHT::CalcdewPointFast does so up to 1/200 degree, never above the temperature of the air by more than that; SHT1x::GetDewPoint after every history of calls does so up to 1.1 degrees, since it drops the fraction of the measured temperature. A humidity of 0 gives something that is not a number. SHT2xClass::GetDewPoint and SHT4xClass::getDewPoint do not return a dew point.", "quantifier": "for all temperatures from -40 to 125 degrees and all humidities from 0.1 (SHT1x: 2) to 100 percent, all sequences of measurements, histories of calls, delays, rounding functions with the properties of IEEE 754 binary32, and every logf with a relative error of 2^-20; SHT2x: for all pairs of measured words with at least 1 degree and 1 to 100 percent", "why_tests_cant": "a test compares a few values with a table; whether the float formula stays close to the dew point over the whole range of two real arguments, and whether a driver passes it the right units for every reading, is a statement about all of them", "anchors": ["sblib/src/sensors/dht.cpp: CalcdewPointFast", "sblib/src/i2c/SHT1x.cpp: GetDewPoint", "sblib/src/i2c/SHT2x.cpp: GetDewPoint", "sblib/src/i2c/SHT4x.cpp: getDewPoint"]}
{"id": "C106", "title": "What a device tells about itself", "statement": "For every device type with interface objects: the request for the description of a property is answered with its type, write bit and number of elements if the device has the property and as failed otherwise; by index the properties of an object are found under 0, 1, 2, ..., each exactly once, and the index after the last is answered as failed; a property described as not writable cannot be written; reading elements of any property answers the bytes kept (numbers with the high byte first, table references of System B with four bytes) or the constant, and as failed if they do not fit into a telegram; none of these requests changes the device. The device descriptor 0 is the mask version of the device type, other descriptors are not answered. BCU1 has no properties.", "quantifier": "for all device types, states, telegrams, previous contents of the send buffer, objects, property identifiers, indexes, numbers of elements and first elements", "why_tests_cant": "a tool relies on descriptions that agree with what reads and writes do, for every property, index, state and request; tests look at a few properties in a few states", "anchors": ["sblib/src/eib/propertiesBCU2.cpp: propertyDescReadTelegram, propertyValueReadTelegram", "sblib/src/eib/propertiesSYSTEMB.cpp: propertyValueReadTelegram", "sblib/src/eib/bcu2.cpp: processApci", "sblib/src/eib/bcu_default.cpp: processApci, processDeviceDescriptorReadTelegram", "sblib/inc/sblib/eib/propertiesBCU2.h"]}
{"id": "C107", "title": "The bootloader as a device on the bus", "statement": "Whatever telegrams are on the bus: a message to the bootloader is executed from the data bytes of its own telegram and answered with a complete telegram of the right length (one of the seven answers of the protocol); a telegram too short for a service, other services, group telegrams and broadcasts do not change flash, buffer or lock. After any history the updater is in the state that results from executing the messages handed over by the transport layer, in order and once each; so before an unlock command with the device's id nothing changes, and the bootloader's own flash never changes. In an update session over a bus that loses and duplicates telegrams the updater has executed exactly the client's first r commands, in order and each once, where r is the number of acknowledged commands or one more (provided nobody sends connectionless telegrams to the bootloader).", "quantifier": "for all telegrams, lengths, contents of the send buffer, states of the updater, histories of the transport layer (telegrams from anybody, losses, repetitions, timing), clients and command sequences, and devices (flash size, image size, id, faults of the flash routines)", "why_tests_cant": "tests send well-formed commands one by one; that no telegram of any length, sender or kind does anything else, and that losses and repetitions never execute a command twice or skip one, is a statement about all histories", "anchors": ["firmware_updater/bootloader/src/bcu_updater.cpp: BcuUpdate::processApci, processBroadCastTelegram, processGroupAddressTelegram", "firmware_updater/bootloader/src/update.cpp: prepareReturnTelegram, handleDeprecatedApciMemoryWrite, handleApciUsermsgManufacturer", "sblib/src/eib/knx_tlayer4.cpp: TLayer4::processTelegram", "sblib/src/eib/bcu_base.cpp: sendApciIndividualAddressReadResponse"]}
{"id": "C108", "title": "A firmware update over an unreliable bus", "statement": "A client connects to the bootloader and transmits the commands of a full or a differential update one after the other, each until it is acknowledged, over a bus that loses and duplicates telegrams and on which anything else may happen. Whenever all its commands are acknowledged, the flash holds the new image, the boot descriptor describes it, and the image is started at the next reset. The commands are those the update tool sends when every command is answered with success. If the client also takes the answers, which the bus can lose and duplicate as well, then the telegrams it has taken are the answers to its commands, one for each and in order; and if it has taken one for each command of a full update and all of them report success, the image is in the flash and is started at the next reset, even if flash operations can fail.", "quantifier": "for all images that fit, device layouts, earlier histories of update commands, clients, sequences of losses, duplications and other events on the bus, and (differential mode) old images that are in the flash", "why_tests_cant": "a test runs one update over a good bus; that no pattern of lost and repeated telegrams and no earlier broken-off update can leave a wrong image is a statement about all histories and images", "anchors": ["firmware_updater/bootloader/src/update.cpp: handleApciUsermsgManufacturer, updSendData, updProgram, updUpdateBootDescriptorBlock", "firmware_updater/updater/source/src/main/java/org/selfbus/updater/Updater.java", "firmware_updater/updater/source/src/main/java/org/selfbus/updater/FlashFullMode.java: doFullFlash", "firmware_updater/updater/source/src/main/java/org/selfbus/updater/FlashDiffMode.java: doDifferentialFlash", "sblib/src/eib/knx_tlayer4.cpp: TLayer4::processTelegram"]}
{"id": "C109", "title": "Requests and answers over an unreliable bus", "statement": "A client connects to a device and transmits requests one after the other, each until it is acknowledged and, if it is one that gets an answer, answered; the device transmits each answer as a numbered data telegram and repeats it until it is acknowledged. The bus loses and duplicates telegrams in both directions. Then every request is executed at most once and in order, and the answers the client takes are exactly the answers to the first executed requests that have one, in order, none of them twice and none of them left out: telegram number j carries the service and the data the device produced when it executed the j-th such request, with the priority of that request. In particular a client that reads memory gets, for each read, the bytes that stood at the addresses when the device executed that read.", "quantifier": "for all device states, applications, clients, request sequences, sequences of losses, duplications, repetitions and other events on the bus", "why_tests_cant": "a test runs one dialogue with one pattern of losses; that no interleaving of repeated requests, repeated answers and repeated acknowledgements can attribute an answer to the wrong request is a statement about all schedules", "anchors": ["sblib/src/eib/knx_tlayer4.cpp: TLayer4::processTelegram, processDirectTelegram, actionA02sendAckPduAndProcessApci, actionA07SendDirectTelegram, actionA08IncrementSequenceNumber, actionA09RepeatMessage, loop", "sblib/src/eib/bcu_default.cpp: BcuDefault::processApci"]}
{"id": "C110", "title": "A dialogue over the bus can always go on", "statement": "In a dialogue as in C109 (a client that knows which of its requests get an answer and waits for it, a device, a bus that loses and duplicates telegrams) nothing leads into a dead end. On a bus that loses and duplicates nothing, a dialogue of any length is possible in which every request is executed once, acknowledged and answered, without waiting for any timeout. And whatever the bus has lost, duplicated or delayed: as long as the connection is open, the last sign of life in it is less than three seconds old and an answer the client still waits for has been repeated fewer than three times, the dialogue can be continued so that everything executed so far is acknowledged and answered without being executed again, and then with as many further requests as one likes. For a firmware update with working flash: it can be completed from every such state, every command is answered with success and the flash then holds the image.", "quantifier": "for all device states, applications, clients, request sequences, numbers of requests, sequences of losses, duplications, repetitions and other events on the bus before", "why_tests_cant": "a test runs one dialogue; that no combination of lost requests, answers and acknowledgements leaves client and device waiting for each other is a statement about all reachable states", "anchors": ["sblib/src/eib/knx_tlayer4.cpp: TLayer4::processTelegram, processDirectTelegram, processConControlAcknowledgmentPDU, actionA02sendAckPduAndProcessApci, actionA03sendAckPduAgain, actionA07SendDirectTelegram, actionA08IncrementSequenceNumber, actionA09RepeatMessage, loop, finishedSendingTelegram", "firmware_updater/bootloader/src/update.cpp: handleApciUsermsgManufacturer"]}
{"id": "C111", "title": "The CCS811 driver wakes the sensor for every transfer", "statement": "The driver of the CCS811 gas sensor addresses the sensor only while its WAKE pin is low, at least 50 microseconds after it went low, and every call leaves the pin high, so that the sensor sleeps; between two transfers the pin is high for at least 20 microseconds. Each call puts exactly the transfer it stands for on the bus (register and data) and returns what the sensor answered. begin() returns true exactly if the sensor has identified itself, has a valid application and runs it after the start command, and the measurement mode was set; setMode(m) sets drive mode m and sleep() drive mode 0.", "quantifier": "every behaviour of the sensor and of the bus with one master, all arguments, all sequences of calls with any time between them, every content of uninitialised variables", "why_tests_cant": "the sensor may refuse any byte of any transfer, and the uninitialised variables may hold anything; a test with one sensor sees neither", "anchors": ["sblib/src/i2c/CCS811.cpp: begin, readStatus, readHW_ID, readErrorID, getBaseline, setBaseline, sleep, setMode, getData, compensate, _digitalWrite"]}
{"id": "C112", "title": "A load control stores what its parameters say, and nothing else", "statement": "An additional load control stores exactly the addresses and numbers it carries (address of the address table, of the association table and of the group objects, application identification, interface objects, segments; the address of the group objects only if the program has no fixed one), and no other load control changes the memory besides the load state. On a System B device a relative allocation gives the table the memory below all other tables and keeps its size, so that tables never overlap; unloading frees the table's memory; the end of loading stores the CRC-16 of the table that was allocated.", "quantifier": "every content of the EEPROM, every object and every load control by property or memory write", "why_tests_cant": "all parameters in all memory contents and all orders of allocations", "anchors": ["sblib/src/eib/propertiesBCU2.cpp: handleAllocAbsTaskSegment, handleTaskCtrl1, handleTaskCtrl2, loadProperty", "sblib/src/eib/propertiesMASK0701.cpp: handleAllocAbsTaskSegment", "sblib/src/eib/propertiesSYSTEMB.cpp: handleDataRelativeAllocation, crc16, loadProperty"]}
{"id": "C113", "title": "The size of the flash and the place of the saved EEPROM", "statement": "iapFlashSize() returns the size of the processor's flash, does not change the flash, and returns the same value for good after the first call without calling the ROM. Hence the last sector of the flash is the one that keeps the EEPROM image.", "quantifier": "every flash size and content, and every status the ROM may return", "why_tests_cant": "a test has one chip and a ROM that does not fail", "anchors": ["sblib/src/iap.cpp: iapFlashSize", "sblib/src/eib/userEeprom.cpp: flashSectorAddress"]}
{"id": "C114", "title": "After a fatal error the device leaves the bus and blinks", "statement": "After fatalError() or a hard fault, from whatever state the pins and SysTick are in, the bus pin is a plain input without pull resistors for good (nothing the timer does reaches the bus), the error LED is an output that blinks for ever (period 2^23 clocks after a fatal error, 2^22 after a hard fault, so the two can be told apart), and no other pin is changed.", "quantifier": "every state of all pins and of SysTick, every pair of pins for LED and bus, every number and timing of rounds of the final loop", "why_tests_cant": "the final loop does not end, and every state before the error is possible", "anchors": ["sblib/src/utils.cpp: setPinsInSecureModes, fatalError, HardFault_Handler, setFatalErrorPin, setKNX_TX_Pin"]}
{"id": "C115", "title": "The start-up code gives every section its content and leaves the rest of the memory alone", "statement": "With a section table as a linker makes it (sections do not overlap, neither table nor kept content lies in one of them), the bootloader's start-up code ends, every initialised section then has the content kept for it in the flash, every section to be cleared is zero, and every other word of the memory is what it was before, for example a request left in the RAM before the restart.", "quantifier": "every content of the memory, every number, place and length of sections", "why_tests_cant": "a test has the layout of one program", "anchors": ["firmware_updater/bootloader/src/cr_startup_lpc11xx.cpp: data_init, bss_init, ResetISR"]}
{"id": "C116", "title": "The picture loop of the graphics library shows the picture, whatever the pages, the clipping and the rotation", "statement": "On a display of any width and of 8 to 248 rows, the loop 'first page; draw; while next page' ends after one pass for each group of eight rows, sends the groups in order and shows at each point what the drawing calls say: the last figure (pixel, line, frame, box, bitmap) that covers the point decides, figures that leave the coordinate range come in again on the other side, and the display may be mounted in four directions. Nothing behind the buffer is written. Frames and boxes must not be empty and a bitmap not wider than 256 points; the drawing procedure must choose its colour before it draws, otherwise the first group of rows has another colour than the rest.", "quantifier": "every drawing procedure, width, height from 8 to 248, rotation, colour, earlier content of the display", "why_tests_cant": "a test draws a few pictures on one display; clipping errors show only at some positions relative to the pages", "anchors": ["u8glib/src/u8g_pb8v1.c: u8g_pb8v1_set_pixel, u8g_pb8v1_SetPixel, u8g_pb8v1_Set8PixelOpt2", "u8glib/src/u8g_page.c: u8g_page_First, u8g_page_Next", "u8glib/src/u8g_clip.c: u8g_is_intersection_decision_tree, u8g_IsBBXIntersection", "u8glib/src/u8g_rect.c: u8g_DrawHLine, u8g_DrawVLine, u8g_DrawFrame, u8g_DrawBox", "u8glib/src/u8g_bitmap.c: u8g_DrawBitmap", "u8glib/src/u8g_rot.c: u8g_dev_rot90_fn, u8g_dev_rot180_fn, u8g_dev_rot270_fn", "u8glib/src/u8g_ll_api.c: u8g_FirstPage, u8g_NextPage", "u8glib/src/u8g_dev_pcd8544_84x48.c: u8g_dev_pcd8544_fn"]}
{"id": "C117", "title": "Lines of the graphics library are straight", "statement": "Drawing a line ends, draws both ends, exactly one point in each column between them (of a steep line: in each row) and no point that is off by more than half a point; it does not matter at which end the line begins.", "quantifier": "every two end points", "why_tests_cant": "a test draws a few lines; the error term has eight bits and overflows only for some slopes and lengths", "anchors": ["u8glib/src/u8g_line.c: u8g_DrawLine"]}
{"id": "C118", "title": "Circles of the graphics library are round and discs are full", "statement": "Drawing a circle ends and lights exactly the points nearest to the true circle, in the quarters asked for and nowhere else, on every display and in every mounting; the circle has a point in every column and row within the radius and is symmetric. Drawing a disc lights exactly the points of the circle and those inside.", "quantifier": "every centre, radius, choice of quarters, display size of 8 to 248 rows and mounting", "why_tests_cant": "a test draws a few circles; the decision value has eight bits and overflows only from some radius on", "anchors": ["u8glib/src/u8g_circle.c: u8g_DrawCircle, u8g_draw_circle, u8g_draw_circle_section, u8g_DrawDisc, u8g_draw_disc, u8g_draw_disc_section"]}
{"id": "C119", "title": "Frames and boxes with rounded corners are drawn without gaps and without stray points", "statement": "Drawing a frame with rounded corners lights exactly the border between the corners and the quarters of a circle in the corners; drawing a box with rounded corners lights exactly the rectangle without what lies outside the quarters of a disc in its corners. The frame is symmetric and lies on the box; with radius 0 the figures are the plain ones.", "quantifier": "every position, size and radius of the figure, display size of 8 to 248 rows and mounting", "why_tests_cant": "a test draws a few boxes; the figure is put together from eight pieces whose lengths are computed with eight bits, and one height makes a piece fill all rows", "anchors": ["u8glib/src/u8g_rect.c: u8g_DrawRFrame, u8g_DrawRBox, u8g_draw_box"]}
{"id": "C120", "title": "A text on the display shows the letters of its font where they belong", "statement": "Drawing a text from a font in memory lights exactly the points of the text's letters, each where the letters before it have moved the writing position, for the four directions, the four choices of the reference row and any mounting of the display; codes without letter leave no trace. A centred text needs a font whose reference height is at most 127 rows. The width that the library reports and the width that the drawing returns are the sum of the letters' advances, and a text drawn in parts, each at the place where the one before ended, is the text drawn at once.", "quantifier": "every font in the two stored forms (letters at most 248 columns wide, at most 255 bytes each, unused bits clear), text, position, direction, reference, display size of 8 to 248 rows and mounting", "why_tests_cant": "a test draws a few words of one font; a font is searched from one of three starting points over entries of different length, and every letter is cut at the borders of eight rows", "anchors": ["u8glib/src/u8g_font.c: u8g_GetGlyph, u8g_CopyGlyphDataToCache, u8g_draw_glyph, u8g_DrawStr, u8g_DrawStrDir, u8g_GetStrWidth, u8g_UpdateRefHeight, u8g_font_calc_vref_top", "u8glib/inc/u8g.h: u8g_DrawStrDir"]}
{"id": "C121", "title": "An XBM bitmap is shown point by point", "statement": "Drawing an XBM bitmap lights exactly the points whose bit is set: rows of whole bytes, the leftmost point in the lowest bit; bits that only fill up a row are not drawn.", "quantifier": "every bitmap, position and size, display size of 8 to 248 rows and mounting", "why_tests_cant": "a test draws one image; widths that are not multiples of eight, positions across the borders of eight rows and the arithmetic of the row length take all combinations", "anchors": ["u8glib/src/u8g_bitmap.c: u8g_DrawXBM, u8g_DrawHXBM, u8g_DrawXBMP"]}
{"id": "C122", "title": "A formatted log line stays in its buffer and shows what the format says", "statement": "Formatting a log message never writes outside of its buffer, always ends it with a zero, keeps as much of the text as fits and returns the length of the whole text; the text does not depend on the buffer. The text is what printf's format language says: literal characters, per cent signs and the conversions d, i, u, x, X, o, c, s with flags in any order, width and precision written down or taken from the arguments, and the length modifiers h and l. A line of the log is the last six digits of the milliseconds, a colon and a blank, the first 255 characters of the text and the end of the line.", "quantifier": "every format, arguments of 32 bits and texts, buffer address and size; widths and precisions up to 2^30", "why_tests_cant": "formats and arguments combine without bound, and the buffer can end at any character of any conversion", "anchors": ["logging/log/logger.cpp: skip_atoi, number, log_vsnprintf, serPrintf"]}
{"id": "C123", "title": "Short disturbances of the bus line are not taken for bits", "statement": "A falling edge on the bus counts as a bit only if the line was low in every reading and more than 3 \u00b5s have passed since the edge; it is rejected only if a reading within the time of the test was high. Rejected edges, in any number and at any moment, change nothing of what the device sends, receives and reports. The own pulses are never put to this test.", "quantifier": "every time of the edge within a microsecond, readings of the line and of the timer (which may start again in between), every history of the bus and every way to put disturbances into it", "why_tests_cant": "disturbances come at any moment of any state; the timer counts whole microseconds and starts again at a value that depends on the state", "anchors": ["sblib/src/eib/bus.cpp: Bus::timerInterruptHandler", "sblib/inc/sblib/eib/bus_const.h: ZERO_BIT_MIN_TIME"]}
{"id": "C124", "title": "The bus is paused at safe moments only, and a telegram to be sent survives the pause", "statement": "pause() makes the bus inactive only when no frame is being sent or received, no acknowledge is due and no telegram waits for its acknowledge or its repetition; with waitForTelegramSent also only when the telegram handed over before has been reported as completed. On an idle bus it returns at once, and it returns on every bus line that gets quiet. Until resume() nothing is sent, received or reported and no pulse is given to the line, whatever is called. A telegram that waits to be sent then is kept, and after resume() its first transmission begins on a quiet line after the two waiting times, unless four attempts were lost to other senders before, in which case it is reported as failed.", "quantifier": "every history of the bus (edges, timeouts, telegrams, earlier pauses), every moment of the call, both values of the parameter, every sequence of calls during the pause", "why_tests_cant": "pause is called from the application at any moment of the interrupt-driven state machine; a wrong moment shows only with certain traffic on the line", "anchors": ["sblib/src/eib/bus.cpp: Bus::pause, Bus::resume, Bus::canPause, Bus::initState", "sblib/inc/sblib/eib/bus.h: Bus::end"]}
{"id": "C125", "title": "Reading from a stream waits exactly for the timeout, for bytes that arrive meanwhile", "statement": "A timed read returns the next byte of the stream as soon as it is found to have arrived. It gives up only after the timeout has passed since the wait began and the byte had not arrived when the stream was looked at last, and it does not go on waiting once the clock shows that the timeout is over; this also holds when the counter of milliseconds runs over during the wait. readBytes, readBytesUntil, find, findUntil and parseInt, with bytes that arrive while they wait, take the same bytes and give the same result as with the same bytes given at once, and they end early only by a timeout of the wait for a single byte. With a timeout of zero nothing is ever received.", "quantifier": "every sequence of arrival times and bytes, every timeout, every course of the time between the looks at the clock (no longer than a full turn of the counter for the upper limit), every position in the stream", "why_tests_cant": "it depends on the moments at which bytes arrive relative to the looks at the clock, and the counter of milliseconds runs over only after 49 days", "anchors": ["sblib/src/stream.cpp: Stream::timedRead, Stream::timedPeek, Stream::_readBytesUntil, Stream::findUntil, Stream::peekNextDigit, Stream::parseInt", "sblib/src/timer.cpp: millis, elapsed", "sblib/inc/sblib/stream.h: Stream::setTimeout"]}
{"id": "C126", "title": "What the bootloader tells about itself and the application is true, and a refusal names its reason", "statement": "A message that is no request of the update protocol, carries a wrong number of bytes, comes to a locked device without being one of the three open requests, is an answer of the protocol or a request that is not implemented is answered with the status for this reason and changes nothing. The version told is the text the boot descriptor points to, or the name of the bootloader if it points outside the application area. The identity tells the first address of the application area, which is the first address that can be programmed. The boot descriptor told is the one in the flash; if an application is started at the next power-up it names this application's first and last address and the CRC-32 of its bytes. The statistic tells the two counters. None of these requests changes anything.", "quantifier": "every message, every state of the bootloader (locked or not, every flash and buffer content), every size of the bootloader image and of the flash, every pattern of failing flash operations", "why_tests_cant": "the updater tool bases its decisions on these reports, which depend on the whole flash content and on the layout of the bootloader image", "anchors": ["firmware_updater/bootloader/src/update.cpp: handleApciUsermsgManufacturerInternal, updAppVersionRequest, updRequestBootloaderIdentity, updRequestStatistic, udpRequestBootDescriptionBlock", "firmware_updater/bootloader/src/boot_descriptor_block.cpp: getAppVersion, applicationFirstAddress, checkApplication", "firmware_updater/bootloader/inc/upd_protocol.h: updCommands"]}
{"id": "C127", "title": "The epoch time of the real-time clock is that of the time and date set", "statement": "After a valid time and a valid date have been set, GetEpoch hands exactly this time and date to the C library, in the 12-hour and in the 24-hour format, whatever the chip contained before; a failing transfer gives no time.", "quantifier": "every valid time in both formats, every valid date, every earlier content of the chip, every way in which the four transfers can be cut short", "why_tests_cant": "the error shows only in one hour of the day in one of the two formats, and with failing transfers the result depends on what was in memory before", "anchors": ["sblib/src/i2c/ds3231.cpp: Ds3231::GetEpoch, Ds3231::GetTime, Ds3231::GetCalendar, Ds3231::SetTime, Ds3231::SetCalendar"]}
{"id": "C128", "title": "The fields of a telegram: control byte, addresses, service, sequence number, group address", "statement": "The functions that set the control byte, the addresses, the service and the sequence number of a telegram write exactly the bits that the standard assigns to the field and leave everything else alone; the functions that read a field return what is in its bits; a group address is split into its main group, middle group and subgroup.", "quantifier": "every content of the buffer, every priority, repetition, frame type, address, service code, data and sequence number, every group address", "why_tests_cant": "the fields share bytes; the error shows only for one sequence number in one kind of telegram", "anchors": ["sblib/inc/sblib/eib/knx_lpdu.h: initLpdu, isRepeated, setRepeated, priority, setPriority, frameType, setFrameType, senderAddress, setSenderAddress, destinationAddress, setDestinationAddress", "sblib/inc/sblib/eib/knx_tpdu.h: sequenceNumber, setSequenceNumber", "sblib/src/eib/apci.cpp: apciCommand, setApciCommand, mainGroup, middleGroup, lowGroup"]}
{"id": "C129", "title": "The hardware type the program sets is what a tool reads", "statement": "After the program has set the hardware type of its device, a tool that reads property 78 of the device object is answered with the first six bytes of the program's buffer, in that order (behind a shorter buffer follows what was there before). At most the ten bytes of the field change, whatever size the caller gives, and the answer for every other property stays the same.", "quantifier": "every device but the one without interface objects, every content of the memory, buffer and size, every property", "why_tests_cant": "sizes above and below the field, and the layout of all other properties, must be right together", "anchors": ["sblib/src/eib/bcu2.cpp: BCU2::setHardwareType", "sblib/inc/sblib/eib/userEepromBCU2.h: orderSize, order, orderOffset", "sblib/src/eib/propertiesBCU2.cpp: propertyValueReadTelegram"]}
{"id": "C130", "title": "The application reads its parameters: bytes and words of the EEPROM and the RAM", "statement": "Reading a byte of the user EEPROM or RAM returns the byte at that address, and 0 for an address outside; reading a word returns the byte at the address as the upper half and the next byte as the lower half, and 0 if one of them is outside; nothing outside the memory is read. inRange tells which addresses the memory has. A byte written with the array access is the only one that changes. Moving the RAM makes the same contents appear at the new addresses.", "quantifier": "every non-empty memory that ends inside the 32 bit address space, every 32 bit address, every content", "why_tests_cant": "the error lies at a single one of 2^32 addresses", "anchors": ["sblib/src/eib/memory.cpp: Memory::inRange", "sblib/src/eib/userEeprom.cpp: UserEeprom::getUInt8, UserEeprom::getUInt16", "sblib/src/eib/userRam.cpp: UserRam::getUInt8, UserRam::getUInt16, UserRam::setUserRamStart"]}
{"id": "C131", "title": "The SHT4x driver reports the last measurement that succeeded", "statement": "A measurement with the SHT4x returns; it succeeds only if the sensor has acknowledged the command and sent six bytes with right check bytes, and then the temperature and the humidity the driver reports are those of the data sheet for these bytes, up to 1/1000. A failed measurement says so and changes nothing. So after any number of measurements the driver reports the last accepted answer, whatever failed afterwards.", "quantifier": "every behaviour of the sensor and every traffic on a bus with one master, every time, every history of measurements, every rounding that obeys IEEE 754", "why_tests_cant": "histories of failures, and the accuracy for all 2^32 answers", "anchors": ["sblib/src/i2c/SHT4x.cpp: SHT4xClass::measureHighPrecision, SHT4xClass::measureHighPrecisionTicks, SHT4xClass::getTemperature, SHT4xClass::getHumidity"]}
