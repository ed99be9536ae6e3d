{"id": "C01", "title": "Two-party result equals plaintext evaluation", "statement": "When Alice runs GarbleStr and Bob runs EvaluateStr on the same well-formed circuit, public data, mask and cycle count, both return SUCCESS and every output bit of every clock cycle, read from the party that owns it, equals the bit EvalauatePlaintext computes from the same inputs, unless two unrelated wire labels happen to collide on their low 64 bits.", "quantifier": "all well-formed sequential circuits, all public/private init and input values, all cycle counts, all label randomness, all block ciphers used as the hash", "why_tests_cant": "The space of circuits x inputs x cycles x randomness is infinite; the tests run a handful of fixed netlists with a few random inputs.", "anchors": ["garbled_circuit/garbled_circuit.cpp:GarbleStr", "garbled_circuit/garbled_circuit.cpp:EvaluateStr", "garbled_circuit/garbled_circuit_low_mem.cpp:GarbleLowMem", "garbled_circuit/garbled_circuit_low_mem.cpp:EvaluateLowMem", "garbled_circuit/garbled_circuit_high_mem.cpp:GarbleHighMem", "garbled_circuit/garbled_circuit_high_mem.cpp:EvaluateHighMem", "scd/scd_evaluator.cpp:EvalauatePlaintext"]}
{"id": "C02", "title": "A garbled gate decodes to its truth table", "statement": "For every non-XOR gate type, if the evaluator holds for each input the label of that input's value, evaluating the gate with the garbler's two table rows yields exactly the garbler's output label of the gate's Boolean function on those values.", "quantifier": "all gate types, all label pairs with a common odd offset, all input values, all cycle and gate numbers, all ciphers", "why_tests_cant": "2^128-sized label space and arbitrary cipher: only sampled by tests.", "anchors": ["garbled_circuit/garbled_circuit_util.cpp:GarbleGate", "garbled_circuit/garbled_circuit_util.cpp:EvalGate", "util/util.cpp:Type2V", "util/util.cpp:GateOperator"]}
{"id": "C03", "title": "XOR, XNOR and NOT are free and correct", "statement": "Garbling or evaluating an XOR, XNOR or NOT gate consumes no garbled table and still gives the evaluator the label of the gate's value.", "quantifier": "all labels, all input values, all table buffers", "why_tests_cant": "Requires every label value and every table-buffer content.", "anchors": ["garbled_circuit/garbled_circuit_util.cpp:GarbleGate", "garbled_circuit/garbled_circuit_util.cpp:EvalGate"]}
{"id": "C04", "title": "Both labels of a wire always differ by the global offset", "statement": "At every moment of garbling, the two labels of every wire that the garbler treats as secret and has garbled differ by exactly the secret offset, so their least significant bits differ and an output can be decoded from one bit.", "quantifier": "all circuits, all wires, all cycles, all randomness", "why_tests_cant": "Invariant over unbounded executions.", "anchors": ["garbled_circuit/garbled_circuit_util.cpp:GarbleGate", "garbled_circuit/garbled_circuit_util.cpp:HalfGarbleGate", "garbled_circuit/garbled_circuit_low_mem.cpp:GarbleLowMem", "garbled_circuit/garbled_circuit_low_mem.cpp:GarbleGenInputLabels"]}
{"id": "C05", "title": "Public constant propagation is sound", "statement": "Whenever the two parties treat a wire as publicly known 0 or 1, that is the value the plaintext evaluator gives to the wire in that cycle, for whatever private inputs the parties hold.", "quantifier": "all circuits, all private inputs, all wires, all cycles", "why_tests_cant": "A test fixes one private input; soundness must hold for all of them at once.", "anchors": ["garbled_circuit/garbled_circuit_util.cpp:GarbleEvalGateKnownValue", "garbled_circuit/garbled_circuit_util.cpp:HalfGarbleGate", "garbled_circuit/garbled_circuit_util.cpp:HalfEvalGate"]}
{"id": "C06", "title": "The two parties classify every wire identically", "statement": "At the end of each cycle the garbler and the evaluator agree, for every wire, on whether it is public (and with which value) or secret, and on which gates were skipped, although they compare different labels.", "quantifier": "all circuits, cycles, inputs, collision-free randomness", "why_tests_cant": "Divergence would need a particular structural coincidence (equal, inverted or garbage labels) that random tests do not hit.", "anchors": ["garbled_circuit/garbled_circuit_low_mem.cpp:GarbleLowMem", "garbled_circuit/garbled_circuit_low_mem.cpp:EvaluateLowMem", "garbled_circuit/garbled_circuit_util.cpp:GarbleGate", "garbled_circuit/garbled_circuit_util.cpp:EvalGate"]}
{"id": "C07", "title": "Tables sent equal tables consumed and never overflow the buffer", "statement": "In each cycle the number of garbled tables the garbler sends equals the number the evaluator consumes, each is consumed by the gate it was made for, and the count never exceeds the number of non-XOR gates for which both parties allocated space.", "quantifier": "all circuits, all cycles, all inputs, all previous buffer contents that do not spell a gate number", "why_tests_cant": "Memory safety and stream alignment have to hold for every run.", "anchors": ["garbled_circuit/garbled_circuit_low_mem.cpp:GarbleLowMem", "garbled_circuit/garbled_circuit_low_mem.cpp:EvaluateLowMem", "garbled_circuit/garbled_circuit_util.cpp:NumOfNonXor", "garbled_circuit/garbled_circuit_util.cpp:EvalGate"]}
{"id": "C08", "title": "Skipped gates never matter", "statement": "A gate whose table is omitted, because its use count dropped to zero, influences no circuit output, no flip-flop and not the terminate signal.", "quantifier": "all circuits, all cycles, all sequences of use-count reductions", "why_tests_cant": "Depends on the whole history of recursive use-count reductions.", "anchors": ["garbled_circuit/garbled_circuit_util.cpp:FillFanout", "garbled_circuit/garbled_circuit_util.cpp:ReduceFanout", "garbled_circuit/garbled_circuit_low_mem.cpp:GarbleLowMem"]}
{"id": "C09", "title": "Flip-flop state is carried correctly across any number of cycles", "statement": "After n cycles the labels and public values both parties hold for each flip-flop encode the flip-flop state of the plaintext evaluator after n cycles.", "quantifier": "all n, all circuits with flip-flops, all init and input values", "why_tests_cant": "Induction over an unbounded number of cycles.", "anchors": ["garbled_circuit/garbled_circuit_low_mem.cpp:GarbleLowMem", "garbled_circuit/garbled_circuit_low_mem.cpp:EvaluateLowMem", "scd/scd_evaluator.cpp:EvalauatePlaintext"]}
{"id": "C10", "title": "Each output bit is revealed to exactly the party named by the mask", "statement": "After the output phase Alice holds exactly the bits whose mask bit is 1 and Bob exactly the bits whose mask bit is 0, each with its true value; a bit of the other party reads 0.", "quantifier": "all masks (any length), all output vectors, public and secret output wires, all cycles", "why_tests_cant": "All masks x all public/secret mixtures; the tests only use masks 0 and all-ones.", "anchors": ["garbled_circuit/garbled_circuit_low_mem.cpp:GarbleTransferOutputLowMem", "garbled_circuit/garbled_circuit_low_mem.cpp:EvaluateTransferOutputLowMem", "garbled_circuit/garbled_circuit_high_mem.cpp:GarbleTransferOutput", "garbled_circuit/garbled_circuit_high_mem.cpp:EvaluateTransferOutput"]}
{"id": "C11", "title": "Output decoding information only flows to the owner", "statement": "In the output phase the bytes Alice sends depend only on the output wires Bob owns and the bytes Bob sends depend only on the output wires Alice owns.", "quantifier": "all masks, all labels, all output values", "why_tests_cant": "Non-interference compares two arbitrary runs.", "anchors": ["garbled_circuit/garbled_circuit_low_mem.cpp:GarbleTransferOutputLowMem", "garbled_circuit/garbled_circuit_low_mem.cpp:EvaluateTransferOutputLowMem"]}
{"id": "C12", "title": "Low-memory and high-memory modes give the same answer", "statement": "For the same circuit, inputs, mask and cycle count, the low-memory and the high-memory mode give each party the same output string in every output mode.", "quantifier": "all circuits, inputs, masks, cycle counts, output modes", "why_tests_cant": "Equivalence of two programs.", "anchors": ["garbled_circuit/garbled_circuit_low_mem.cpp", "garbled_circuit/garbled_circuit_high_mem.cpp", "util/util.cpp:OutputBN2StrHighMem", "util/util.cpp:OutputBN2StrLowMem"]}
{"id": "C13", "title": "Early termination happens in the same cycle for everyone", "statement": "With a terminate period T, the garbled execution of both parties stops after the first cycle divisible by T in which the terminate wire is 1, the same cycle in which the plaintext evaluator stops.", "quantifier": "all circuits with a terminate wire, all periods, all inputs, public and secret terminate wires", "why_tests_cant": "Ranges over all executions; no unit test has a secret terminate wire.", "anchors": ["garbled_circuit/garbled_circuit_util.cpp:GarbleTransferTerminate", "garbled_circuit/garbled_circuit_util.cpp:EvaluateTransferTerminate", "scd/scd_evaluator.cpp:EvalauatePlaintext"]}
{"id": "C14", "title": "No schedule of the two processes deadlocks or changes the result", "statement": "Alice and Bob run as two processes over two byte streams. Whatever the relative speed of the processes, neither blocks forever, all bytes sent are consumed and the final outputs are the same.", "quantifier": "all interleavings of the two processes, all circuits and inputs, OT enabled or disabled", "why_tests_cant": "Tests see a few interleavings chosen by the OS.", "anchors": ["garbled_circuit/garbled_circuit.cpp:GarbleStr", "garbled_circuit/garbled_circuit.cpp:EvaluateStr", "tcpip/tcpip.cpp", "crypto/OT.cpp", "crypto/OT_extension.cpp"]}
{"id": "C15", "title": "SendData and RecvData deliver the exact bytes under any fragmentation", "statement": "If SendData and RecvData return SUCCESS for a length between 0 and 2^31-1, the receiver's buffer holds exactly the sender's bytes in order, whatever the sizes returned by write and read; they return FAILURE as soon as the socket reports an error or end of stream and never touch memory beyond len.", "quantifier": "all buffers, all sequences of short reads and writes, all error points", "why_tests_cant": "Fragmentation is chosen by the kernel and network.", "anchors": ["tcpip/tcpip.cpp:SendData", "tcpip/tcpip.cpp:RecvData"]}
{"id": "C16", "title": "Large transfers are not silently dropped", "statement": "Sending the garbled tables of a cycle transfers all of them, for any number of tables the circuit needs.", "quantifier": "all table counts", "why_tests_cant": "Needs circuits with more than 44 million non-XOR gates.", "anchors": ["tcpip/tcpip.cpp:SendData", "garbled_circuit/garbled_circuit_low_mem.cpp:GarbleBNLowMem", "garbled_circuit/garbled_circuit_high_mem.cpp:GarbleBNHighMem"]}
{"id": "C17", "title": "Big numbers survive transmission", "statement": "RecvBN returns the number given to SendBN.", "quantifier": "all big numbers", "why_tests_cant": "Unbounded integers, including zero and negative ones.", "anchors": ["crypto/BN.cpp:SendBN", "crypto/BN.cpp:RecvBN"]}
{"id": "C18", "title": "Label to big-number conversion is lossless", "statement": "Converting a 128-bit label to a big number and back gives the same label, and converting a big number to a label gives its low 128 bits.", "quantifier": "all labels, all non-negative big numbers, including ones with leading zero bytes", "why_tests_cant": "2^128 labels.", "anchors": ["crypto/BN.cpp:BlockToBN", "crypto/BN.cpp:BNToBlock", "crypto/block.h:_m128_switch_endian"]}
{"id": "C19", "title": "Big-number bit helpers compute the named bitwise operation", "statement": "BN_xor sets the low `bits` bits of the result to the exclusive or of its arguments whatever the result held before, BN_invert complements exactly the low `bits` bits, BN_full_one gives 2^bits-1 and reports success.", "quantifier": "all numbers, all bit counts, all previous contents of the result", "why_tests_cant": "Unbounded.", "anchors": ["crypto/BN.cpp:BN_xor", "crypto/BN.cpp:BN_invert", "crypto/BN.cpp:BN_full_one"]}
{"id": "C20", "title": "Base oblivious transfer delivers the chosen message", "statement": "For every RSA key (distinct primes, public exponent inverse to the private one), all sender and receiver randomness, OTRecv obtains exactly message[i][sel[i]] for every i.", "quantifier": "all keys, random values, message pairs, selection vectors, lengths", "why_tests_cant": "All RSA keys and coins.", "anchors": ["crypto/OT.cpp:OTSendBN", "crypto/OT.cpp:OTRecvBN", "crypto/OT.cpp:OTSend", "crypto/OT.cpp:OTRecv"]}
{"id": "C21", "title": "Base oblivious transfer hides the selection", "statement": "Over the receiver's uniform choice of its secret, each value it sends is distributed identically for selection 0 and selection 1.", "quantifier": "all valid RSA keys, all sender random values, all transmitted values", "why_tests_cant": "A statement about distributions.", "anchors": ["crypto/OT.cpp:OTRecvBN"]}
{"id": "C22", "title": "Extended oblivious transfer delivers the chosen messages", "statement": "OTExtRecv obtains exactly message[i][sel[i]] for every i, for any number of messages, given that the base transfer is correct.", "quantifier": "all message counts, messages, selections, coins, hash functions", "why_tests_cant": "Unbounded.", "anchors": ["crypto/OT_extension.cpp:OTExtSendBN", "crypto/OT_extension.cpp:OTExtRecvBN", "crypto/OT_extension.cpp:OTExtSend", "crypto/OT_extension.cpp:OTExtRecv"]}
{"id": "C23", "title": "Bit-matrix transposition is exact", "statement": "SwitchRowColumnBN produces the transposed bit matrix (bit i of row j equals bit j of row i of the input), never fails, and applying it twice gives back the input.", "quantifier": "all matrices of all sizes", "why_tests_cant": "Unbounded sizes.", "anchors": ["crypto/OT_extension.cpp:SwitchRowColumnBN", "crypto/OT_extension.cpp:SwitchRowColumnBNPair"]}
{"id": "C24", "title": "Extended OT hashes distinct values distinctly", "statement": "Different 128-bit values (with the same index) are presented to the hash function as different byte strings, so that security rests on the hash only.", "quantifier": "all pairs of 128-bit values", "why_tests_cant": "Pairs of 128-bit values.", "anchors": ["crypto/OT_extension.cpp:HashBN"]}
{"id": "C25", "title": "Extended OT hides the selections", "statement": "Whatever secret the sender chose, the values it obtains from the base transfers are identically distributed for any two selection vectors of the receiver.", "quantifier": "all selection vectors, all sender secrets", "why_tests_cant": "A statement about distributions.", "anchors": ["crypto/OT_extension.cpp:OTExtRecvBN"]}
{"id": "C26", "title": "Labels are unpredictable to the evaluator", "statement": "From the messages it receives the evaluator cannot compute the garbler's offset or the garbler's private input bits.", "quantifier": "all seeds, circuits, inputs", "why_tests_cant": "Security property over all runs.", "anchors": ["util/util.cpp:RandomBlock", "garbled_circuit/garbled_circuit.cpp:GarbleStr", "garbled_circuit/garbled_circuit_low_mem.cpp:GarbleTransferInputLabels"]}
{"id": "C27", "title": "Writing then reading a circuit file gives the same circuit", "statement": "ReadSCD applied to the file WriteSCD produced gives exactly the sizes, gates (in scheduled order), outputs and flip-flop connections of the circuit that was written.", "quantifier": "all circuits", "why_tests_cant": "Unbounded data.", "anchors": ["scd/scd.cpp:WriteSCD", "scd/scd.cpp:ReadSCD"]}
{"id": "C28", "title": "Gate ordering succeeds exactly for acyclic circuits and respects dependencies", "statement": "TopologicalSort returns SUCCESS iff the combinational gate graph has no cycle, and then lists every wire exactly once with each gate after the wires it reads; it always terminates.", "quantifier": "all netlists", "why_tests_cant": "All graphs.", "anchors": ["scd/scheduling.cpp:TopologicalSort", "scd/scheduling.cpp:TopologicalSortVisit"]}
{"id": "C29", "title": "Gate reordering and renumbering preserve the circuit's function", "statement": "The circuit SortNetlist produces computes, for all inputs and any number of cycles, the same outputs as the netlist it was given.", "quantifier": "all acyclic netlists, all inputs, all cycle counts", "why_tests_cant": "Program equivalence.", "anchors": ["scd/scheduling.cpp:SortNetlist", "scd/scheduling.cpp:TopologicalSort"]}
{"id": "C30", "title": "Multi-gate cells are expanded correctly", "statement": "The two-input gates that replace a MUX, half adder or full adder cell compute the cell's function, also when only some of the cell's outputs are connected.", "quantifier": "all input values, all subsets of connected ports, all gate numbers", "why_tests_cant": "Names and positions range over unbounded sets.", "anchors": ["scd/parse_netlist.cpp:ParseNetlist"]}
{"id": "C31", "title": "Wire numbering follows the documented layout without overlap", "statement": "The index ranges for p_init, g_init, e_init, p_input, g_input, e_input, flip-flops and gates are consecutive, disjoint and cover all wires, and IdAssignment numbers the named ports accordingly.", "quantifier": "all size combinations", "why_tests_cant": "All sizes.", "anchors": ["garbled_circuit/garbled_circuit_util.h:GarbledCircuit", "scd/parse_netlist.cpp:IdAssignment"]}
{"id": "C32", "title": "Bristol wire numbers map to ports one-to-one", "statement": "In a Bristol file with non-overlapping inputs and outputs, distinct wire numbers get distinct names, the first numbers name the parties' inputs in order and the last ones the outputs in order.", "quantifier": "all sizes and wire numbers", "why_tests_cant": "All sizes.", "anchors": ["scd/parse_netlist.cpp:GetBristWire", "scd/parse_netlist.cpp:ParseBrisNetlist"]}
{"id": "C33", "title": "Plaintext evaluation implements the sequential-circuit semantics", "statement": "EvalauatePlaintext's output bit for cycle c and port i is the value obtained from the circuit equations: gate = function of its inputs, flip-flop = initial value in cycle 0 and its data input of the previous cycle afterwards.", "quantifier": "all well-formed circuits, inputs, cycles", "why_tests_cant": "All circuits.", "anchors": ["scd/scd_evaluator.cpp:EvalauatePlaintext"]}
{"id": "C34", "title": "Output strings show the right bits in every output mode", "statement": "The consecutive string is the hexadecimal value of all cycles' outputs, the separated string lists each cycle's value in order, the last-clock string is the value of the final cycle.", "quantifier": "all outputs, cycle counts, widths", "why_tests_cant": "Unbounded.", "anchors": ["util/util.cpp:OutputBN2StrHighMem", "util/util.cpp:OutputBN2StrLowMem"]}
{"id": "C35", "title": "Binary, hexadecimal and decimal helpers are mutually inverse", "statement": "dec2bin/bin2dec round-trip every representable signed and unsigned value for widths up to 64, hex2bin/bin2hex preserve the numeric value.", "quantifier": "all values, all widths", "why_tests_cant": "All 64-bit values and unbounded strings.", "anchors": ["util/util.cpp:dec2bin", "util/util.cpp:bin2dec", "util/util.cpp:hex2bin", "util/util.cpp:bin2hex", "util/util.cpp:towsComplement"]}
{"id": "C36", "title": "Printing a label and parsing it back gives the label", "statement": "Str2Block applied to the printed form of a block returns SUCCESS and that block.", "quantifier": "all blocks", "why_tests_cant": "2^128 blocks.", "anchors": ["util/util.cpp:Str2Block", "util/log.cpp:operator<<"]}
{"id": "C37", "title": "Word-level input and output formatting is lossless", "statement": "formatGCInputString puts each array element in its own bit field, and parseGCOutputString recovers the output values from the result string.", "quantifier": "all value lists and widths", "why_tests_cant": "Unbounded lists.", "anchors": ["util/util.cpp:formatGCInputString", "util/util.cpp:parseGCOutputString", "util/util.cpp:formatGCOutputMask"]}
{"id": "C38", "title": "Hash tweaks never repeat", "statement": "No two half-gate hash calls of one protocol run, for different gates, cycles or halves, use the same tweak.", "quantifier": "all gates, cycles, halves", "why_tests_cant": "All pairs of gates and cycles.", "anchors": ["garbled_circuit/garbled_circuit_util.cpp:GarbleGate", "crypto/block.h:MakeBlock"]}
{"id": "C39", "title": "Fan-out counting is exact and its reduction terminates", "statement": "FillFanout gives each gate the number of places that read its output and fails iff a gate reads a later gate or an unused gate exists; ReduceFanout always terminates and never makes a count negative or larger.", "quantifier": "all circuits (even cyclic ones for termination), all count vectors", "why_tests_cant": "All circuits.", "anchors": ["garbled_circuit/garbled_circuit_util.cpp:FillFanout", "garbled_circuit/garbled_circuit_util.cpp:ReduceFanout"]}
{"id": "C40", "title": "The plaintext API reports failure", "statement": "EvalauatePlaintextStr returns SUCCESS only if the circuit was evaluated.", "quantifier": "all file systems and circuits", "why_tests_cant": "Depends on the presence of unrelated files.", "anchors": ["scd/scd_evaluator.cpp:EvalauatePlaintextStr", "scd/scd_evaluator.cpp:EvalauatePlaintext"]}
{"id": "C41", "title": "The generator's lanes are permutations with alternating parity", "statement": "Each step of the label generator is a bijection of its 128-bit state, so labels repeat only after a full period, and the low bit of consecutive labels strictly alternates.", "quantifier": "all seeds, all numbers of steps", "why_tests_cant": "All seeds and all steps.", "anchors": ["util/util.cpp:RandomBlock", "util/util.cpp:SrandSSE"]}
{"id": "C42", "title": "The schedule sort orders and permutes", "statement": "QuickSort leaves the keys in descending order and moves the indices along with their keys (a permutation).", "quantifier": "all arrays", "why_tests_cant": "All arrays.", "anchors": ["scd/scheduling.cpp:QuickSort", "scd/scheduling.cpp:TopSort"]}
{"id": "C43", "title": "Equality test of labels is exact", "statement": "CmpBlock returns true exactly for equal blocks.", "quantifier": "all pairs of blocks", "why_tests_cant": "Pairs of 128-bit values.", "anchors": ["crypto/block.h:CmpBlock"]}
{"id": "C44", "title": "Base transfers hide the message that was not chosen", "statement": "What the receiver of a base transfer is sent for the message it did not choose reveals nothing about that message; in particular the extended transfer never reveals the evaluator's selections to the garbler, for any number of messages.", "quantifier": "all message lengths, selection vectors, keys and random values", "why_tests_cant": "A leak does not change any output; it appears only for more than 1024 messages and concerns the view of one party over all coins.", "anchors": ["crypto/OT.cpp:OTSendBN", "crypto/OT_extension.cpp:OTExtRecvBN", "crypto/OT_extension.cpp:OTExtSendBN"]}
{"id": "C45", "title": "Str2Block rejects malformed strings", "statement": "Str2Block returns FAILURE for every string that is not a hexadecimal numeral of at most 32 digits (blanks aside), so a mistyped label or key is never silently replaced by another one.", "quantifier": "all strings", "why_tests_cant": "Unbounded set of malformed strings.", "anchors": ["util/util.cpp:Str2Block"]}
{"id": "C47", "title": "A damaged circuit file is reported", "statement": "ReadSCD returns FAILURE when the file ends early or contains something other than the expected numbers, so that no circuit with uninitialised contents is used.", "quantifier": "all file contents", "why_tests_cant": "Unbounded set of damaged files.", "anchors": ["scd/scd.cpp:ReadSCD"]}
{"id": "C48", "title": "A compiled netlist computes what the netlist says", "statement": "For every well-formed netlist, after sorting, writing the circuit file and reading it back, the plaintext evaluator produces for all inputs the outputs and the number of cycles that the netlist prescribes, whatever the memory held before.", "quantifier": "all well-formed netlists, all inputs, all cycle counts, all terminate periods", "why_tests_cant": "Equivalence of programs through a file format.", "anchors": ["scd/scheduling.cpp:SortNetlist", "scd/scd.cpp:WriteSCD", "scd/scd.cpp:ReadSCD", "scd/scd_evaluator.cpp:EvalauatePlaintext"]}
{"id": "C46", "title": "Every label has its own random draw", "statement": "The offset, the key, the labels of all initial values and the labels of all input bits in all cycles come from different draws of the generator, so that (for a perfect generator) they are independent and none is used twice; these are the labels sent.", "quantifier": "all circuits, all numbers of cycles, both modes", "why_tests_cant": "Independence quantifies over all draws.", "anchors": ["garbled_circuit/garbled_circuit_low_mem.cpp:GarbleGenInputLabels", "garbled_circuit/garbled_circuit_low_mem.cpp:GarbleGneInitLabels", "garbled_circuit/garbled_circuit_high_mem.cpp:GarbleMakeLabels"]}
{"id": "C49", "title": "A compiled Verilog or Bristol netlist computes what its equations say", "statement": "When a netlist of named nets is compiled (numbering, sorting, writing) and the circuit file is read back, the plaintext evaluator produces for all inputs the values of the nets o[0], o[1], ... in each cycle and stops when the net terminate is 1; a netlist that reads a net nothing drives is rejected.", "quantifier": "all netlists, inputs, numbers of cycles", "why_tests_cant": "Names, sizes and connections are unbounded.", "anchors": ["scd/parse_netlist.cpp:IdAssignment", "scd/v_2_scd.cpp:Verilog2SCD", "scd/scheduling.cpp:SortNetlist", "scd/scd.cpp:WriteSCD"]}
{"id": "C50", "title": "A compiled Bristol circuit computes the circuit", "statement": "For every text file that describes a Bristol circuit whose gates are in an order of computation, with one driver for each wire and no wire that is input and output at the same time, Bris2SCD succeeds, and the plaintext evaluator on the compiled file produces for all inputs the values of the last wires of the circuit.", "quantifier": "all circuits, layouts of the file, inputs, numbers of cycles", "why_tests_cant": "Unbounded circuits, inputs and file layouts.", "anchors": ["scd/parse_netlist.cpp:ParseBrisNetlist", "scd/v_2_scd.cpp:Bris2SCD"]}
{"id": "C51", "title": "A compiled Verilog module computes the module", "statement": "For every text that contains a module of library cells, flip-flops, assignments and declarations of the known ports, Verilog2SCD reads the module whatever its layout, and when it produces a circuit file, the plaintext evaluator on that file produces for all inputs the bits o[0], o[1], ... that the cells define in each cycle, and stops when the net terminate is 1.", "quantifier": "all modules, layouts of the text, inputs, numbers of cycles", "why_tests_cant": "Unbounded modules, inputs and file layouts.", "anchors": ["scd/parse_netlist.cpp:ParseNetlist", "scd/parse_netlist.cpp:IdAssignment", "scd/v_2_scd.cpp:Verilog2SCD"]}
{"id": "C52", "title": "What the evaluator sees does not depend on the secret inputs", "statement": "For two inputs that agree on the public parts and on the revealed outputs, the random choices of the garbler correspond one to one such that the evaluator's view - its labels, all garbled tables of all cycles, the decoding bits, and the block cipher except at the points that involve a label it did not get - is the same, provided that the random choices are good (odd offset, no accidental equality of labels or cipher points).", "quantifier": "all circuits, numbers of cycles, pairs of inputs, good random choices, tests on the view", "why_tests_cant": "Privacy is a statement about the distribution of the messages over all random choices; a leak changes no output.", "anchors": ["garbled_circuit/garbled_circuit_util.cpp:GarbleGate", "garbled_circuit/garbled_circuit_low_mem.cpp:GarbleBNLowMem"]}
{"id": "C53", "title": "The block cipher is AES", "statement": "For every key of 128, 192 or 256 bits, AESSetEncryptKey computes the key schedule of FIPS-197 and AESEcbEncryptBlks replaces every block by its AES encryption and nothing else; AESEcbDecryptBlks with AESSetDecryptKey gives back the blocks, and encryption is a permutation of the blocks.", "quantifier": "all keys, all blocks, all numbers of blocks", "why_tests_cant": "2^128 keys and blocks.", "anchors": ["crypto/aes.h:AESSetEncryptKey", "crypto/aes.h:AESEcbEncryptBlks", "crypto/aes.h:AESSetDecryptKey", "crypto/aes.h:AESEcbDecryptBlks"]}
{"id": "C54", "title": "From the text of a module to the results of two parties", "statement": "When a Verilog module or a Bristol circuit is compiled to a circuit file, two parties read this file and run GarbleStr and EvaluateStr with hexadecimal numbers, then under every schedule both return SUCCESS, and their result strings together show exactly the output bits that the cells of the module define, each bit at the party that the mask names, up to the cycle in which the module's net terminate is 1.", "quantifier": "all modules, inputs, masks, output modes, numbers of cycles, both memory modes, all schedules", "why_tests_cant": "End-to-end statement over unbounded modules, inputs and interleavings.", "anchors": ["scd/v_2_scd.cpp:Verilog2SCD", "scd/v_2_scd.cpp:Bris2SCD", "scd/scd.cpp:ReadSCD", "garbled_circuit/garbled_circuit.cpp:GarbleStr", "garbled_circuit/garbled_circuit.cpp:EvaluateStr"]}
{"id": "C55", "title": "Bad random choices are rare, so the evaluator's advantage is small", "statement": "Among all choices of the garbler's offset, labels and cipher, the fraction for which labels of different wires agree by accident, or a use of the cipher that the evaluator must not know coincides with another one, is at most (16 q^2 + 2^64 q) / 2^127 with q = cycles times gates. Hence no test that the evaluator applies to everything it sees tells two secret inputs with the same revealed outputs apart with a larger advantage.", "quantifier": "all circuits, inputs, numbers of cycles below 2^64, both memory modes, all tests", "why_tests_cant": "A statement about fractions of more than 2^128 random choices.", "anchors": ["garbled_circuit/garbled_circuit_low_mem.cpp:GarbleBNLowMem", "garbled_circuit/garbled_circuit_high_mem.cpp:GarbleHighMem", "crypto/block.h:CmpBlock", "garbled_circuit/garbled_circuit_util.cpp:GarbleGate"]}
{"id": "C56", "title": "The protocol gives a wrong result only for a negligible fraction of the garbler's random choices", "statement": "CmpBlock compares 64 bits of labels only, and secret labels may also agree completely by accident, so the results can be wrong. The fraction of the garbler's random choices for which there is any execution (any secret inputs, any schedule) that does not end with the plaintext results is at most (16 q^2 + 2^64 q) / 2^127 with q = cycles times gates, when no secret gate is superfluous. For a superfluous secret gate no table is sent and the evaluator computes with random rows of its own: then, for all inputs and random rows, the fraction is at most twice that.", "quantifier": "all circuits, public inputs, numbers of cycles below 2^64; all secret inputs, random rows of the evaluator and schedules", "why_tests_cant": "The bad choices are too rare to be found by testing and too many to be enumerated.", "anchors": ["crypto/block.h:CmpBlock", "garbled_circuit/garbled_circuit.cpp:GarbleBN", "garbled_circuit/garbled_circuit.cpp:EvaluateBN"]}
{"id": "C57", "title": "The sorting programs sort", "statement": "a23/bubble-sort and a23/merge-sort: the output array is the array that the two parties share by XOR, in ascending order of signed numbers, and no access is outside of an array.", "quantifier": "all sizes, all shares, all previous contents of the output array", "why_tests_cant": "The sizes and contents of arrays are unbounded; the example runs of the repository use one input each.", "anchors": ["a23/bubble-sort/bubble-sort.c:bubble_sort", "a23/bubble-sort/bubble-sort.c:gc_main", "a23/merge-sort/merge-sort.c:mergesort", "a23/merge-sort/merge-sort.c:gc_main"]}
{"id": "C58", "title": "Long addition and comparison", "statement": "a23/sum adds two numbers of n words modulo 2^(32n), a23/compare decides which number is less, both for the ARM instructions and for the portable code, and a23/temp adds two numbers; no access is outside of an array.", "quantifier": "all sizes and all inputs", "why_tests_cant": "Carries through an unbounded number of words.", "anchors": ["a23/sum/sum.c:gc_main", "a23/compare/compare.c:gc_main", "a23/temp/temp.c:gc_main"]}
{"id": "C59", "title": "Hamming distance", "statement": "a23/hamming counts the positions in which the two inputs differ.", "quantifier": "all inputs; all sizes that are powers of two", "why_tests_cant": "2^64 pairs of inputs already for one word.", "anchors": ["a23/hamming/hamming.c:gc_main"]}
{"id": "C60", "title": "Shortest paths", "statement": "a23/dijkstra computes for the shared matrix of weights the length of a shortest walk from vertex 0 to every vertex, where weight 0 means that there is no edge and 32767 that the vertex cannot be reached within that length.", "quantifier": "all numbers of vertices, all shared matrices", "why_tests_cant": "Graphs of every size and all weights.", "anchors": ["a23/dijkstra/dijkstra.c:dijkstra", "a23/dijkstra/dijkstra.c:gc_main"]}
{"id": "C61", "title": "Products", "statement": "a23/matrix-mul multiplies two matrices of signed numbers, a23/mul two signed numbers.", "quantifier": "all sizes and entries", "why_tests_cant": "Unbounded sizes; overflow happens for few entries only.", "anchors": ["a23/matrix-mul/matrix-mul.c:gc_main", "a23/mul/mul.c:gc_main"]}
{"id": "C62", "title": "AES on the ARM core is AES-128", "statement": "a23/aes encrypts the evaluator's block with the garbler's key as FIPS-197 defines (key length 128), and a23/sbox applies the substitution box to the shared byte, without leaving the arrays.", "quantifier": "all keys, messages, bytes", "why_tests_cant": "2^256 pairs of keys and messages.", "anchors": ["a23/aes/aes.c:getSBoxValue", "a23/aes/aes.c:KeyExpansion", "a23/aes/aes.c:Cipher", "a23/aes/aes.c:gc_main", "a23/sbox/sbox.c:gc_main"]}
{"id": "C63", "title": "SHA-3 on the ARM core is SHA3-256", "statement": "a23/sha3 writes the SHA3-256 digest (FIPS-202) of the garbler's bytes followed by the evaluator's bytes. Inputs that fill a block are not supported: with exactly 136 bytes the buffer is overrun.", "quantifier": "all inputs; all sizes of less than 136 bytes in total (the code has 8 and 8)", "why_tests_cant": "2^128 inputs already for the sizes of the code.", "anchors": ["a23/sha3/sha3.c:rhash_sha3_update", "a23/sha3/sha3.c:rhash_sha3_permutation", "a23/sha3/sha3.c:rhash_sha3_final", "a23/sha3/sha3.c:gc_main"]}
{"id": "C64", "title": "Bytes from an untrusted peer do not cause undefined behaviour", "statement": "Whatever bytes the other party sends (any sequence, complete or not), a party running on a circuit whose references are in range never reads or writes outside of its buffers.", "quantifier": "all circuits with references in range, all arguments, all random choices, all byte sequences", "why_tests_cant": "All byte sequences.", "anchors": ["garbled_circuit/garbled_circuit_low_mem.cpp:EvaluateBNLowMem", "garbled_circuit/garbled_circuit_high_mem.cpp:EvaluateHighMem", "crypto/OT.cpp", "crypto/BN.cpp:RecvBN"]}
{"id": "C65", "title": "The mapping file names the wires of the circuit file", "statement": "The .map file written with a circuit lists every flip-flop and gate output of the netlist by name with consecutive wire numbers; in every cycle the wire with that number, in the circuit read back from the .scd file, carries the value the netlist (or Verilog module) gives to the name; the last line is the wire of the terminate signal.", "quantifier": "all legal netlists without doubly driven nets, all inputs, all cycles", "why_tests_cant": "All netlists.", "anchors": ["scd/scheduling.cpp:WriteMapping", "scd/v_2_scd.cpp:Verilog2SCD"]}
{"id": "C66", "title": "CORDIC computes sine and cosine", "statement": "a23/cordic has no signed overflow for any inputs, and for an angle of at most 1.743 radians (more than pi/2) its outputs differ from the sine and the cosine of the angle by at most 96 units of the fixed point format with 30 binary places (less than 1e-7).", "quantifier": "all pairs of 32-bit shares", "why_tests_cant": "2^64 pairs of inputs, 2^32 angles; a table entry or a rounding that is slightly off changes few results visibly.", "anchors": ["a23/cordic/cordic.c:cordic", "a23/cordic/cordic.c:gc_main"]}
{"id": "C67", "title": "Each line of an input file is the input of one cycle", "statement": "An input file with one hexadecimal numeral of w digits per line is read as the number in which line t fills the bits from 4wt on, so line t is the input of cycle t; a string that names no file is itself the number; the comparison of results ignores only the case of letters.", "quantifier": "all files, widths, numbers of lines", "why_tests_cant": "All file contents; line order and line endings matter.", "anchors": ["util/util.cpp:ReadFileOrPassHex", "util/util.cpp:icompare"]}
{"id": "C68", "title": "The native test of the ARM programs passes words faithfully", "statement": "The native test calls gc_main with the words of the two files (line i of 8 digits is word i, missing lines are 0) and prints the number whose words are the outputs; it is undefined only if gc_main is.", "quantifier": "all programs, all input files", "why_tests_cant": "All inputs and programs.", "anchors": ["a23/lib/a23_main_testing.cpp:main", "a23/lib/a23_main_testing.cpp:BNtoByteLittleEndian", "a23/lib/a23_main_testing.cpp:ByteLittleEndiantoBN"]}
{"id": "C69", "title": "The arithmetic blocks of the circuit library compute what their names say", "statement": "circuit_synthesis/syn_lib: for every width ADD, SUB, ADD_, SUB_, COMP, MUX, TwosComplement, MULT, MULT_, DIV, DIV_, SquareRoot, COUNT compute sum, difference, comparison, choice, negation, product, quotient and remainder (rounded towards zero for signed numbers), the integer square root and the number of ones; SHIFT_LEFT shifts to the left and SHIFT_RIGHT to the right.", "quantifier": "all widths (up to 512 for the blocks with generated instances of a fixed maximal number), all operands", "why_tests_cant": "All widths and operands; test benches use one width and random operands.", "anchors": ["circuit_synthesis/syn_lib/ADD.v", "circuit_synthesis/syn_lib/SUB.v", "circuit_synthesis/syn_lib/MULT.v", "circuit_synthesis/syn_lib/DIV.v", "circuit_synthesis/syn_lib/square_root_comb.v", "circuit_synthesis/syn_lib/COUNT.v", "circuit_synthesis/syn_lib/SHIFT_LEFT.v"]}
{"id": "C70", "title": "Sequential sum, comparison and Hamming distance do not depend on the number of cycles", "statement": "circuit_synthesis/sum, compare, hamming: fed with CC digits of N/CC bits, lowest first, the circuits compute over the cycles the sum, the comparison and the Hamming distance of the whole numbers.", "quantifier": "all widths, all numbers of cycles, all operands", "why_tests_cant": "Unbounded number of cycles and widths.", "anchors": ["circuit_synthesis/sum/sum.v", "circuit_synthesis/compare/compare.v", "circuit_synthesis/hamming/hamming.v"]}
{"id": "C71", "title": "Products, maximum and encoder", "statement": "circuit_synthesis/mult computes the product modulo 2^N for every number of cycles; matrix_mult the product of matrices (all four variants), argmax the maximum and its position, encoder the position of the only one, non_secret_test alternately sum and difference.", "quantifier": "all sizes, widths and operands, all numbers of cycles", "why_tests_cant": "Unbounded sizes.", "anchors": ["circuit_synthesis/mult/mult.v", "circuit_synthesis/matrix_mult/matrix_mult_N_M_0.v", "circuit_synthesis/matrix_mult/matrix_mult_N_M_1.v", "circuit_synthesis/matrix_mult/matrix_mult_N_M_2.v", "circuit_synthesis/matrix_mult/matrix_mult_N_M_3.v", "circuit_synthesis/argmax/argmax.v", "circuit_synthesis/encoder/encoder.v", "circuit_synthesis/non_secret_test/non_secret_test.v"]}
{"id": "C72", "title": "The AES circuits compute AES-128", "statement": "For every 128-bit key given by the garbler and every 128-bit message given by the evaluator, the output of aes_1cc and the output of the eleventh cycle of aes_11cc are the AES-128 encryption of the message under the key, as FIPS-197 defines it (byte i of the standard in bits 8i to 8i+7).", "quantifier": "for all keys and messages", "why_tests_cant": "The test benches try a few vectors; the claim concerns all 2^256 pairs.", "anchors": ["circuit_synthesis/aes/aes_1cc.v", "circuit_synthesis/aes/aes_11cc.v", "circuit_synthesis/aes/SubBytes.v", "circuit_synthesis/aes/KeyExpansion.v"]}
{"id": "C73", "title": "The Keccak circuits compute Keccak-p[1600,24]", "statement": "For all inputs of the two parties, the output of sha3_comb and the output of the last of the CC cycles of sha3_seq are Keccak-p[1600,24], as FIPS-202 defines it, of the state whose last nine lanes hold {e_init, g_init}.", "quantifier": "for all inputs; for sha3_seq all numbers of cycles from 2 to 24", "why_tests_cant": "A test bench compares a few states; a late round constant needs a reference implementation to be seen.", "anchors": ["circuit_synthesis/sha3/sha3_comb.v", "circuit_synthesis/sha3/sha3_seq.v", "circuit_synthesis/sha3/round.v", "circuit_synthesis/sha3/rconst.v"]}
{"id": "C74", "title": "Nearest neighbours", "statement": "first_nns_comb and first_nns_seq output the point of the data base with the least distance to the query, k_nns_seq the K points with the least distances in ascending order; the circuits in knns for the Hamming distance, those in knns_td for the taxicab distance.", "quantifier": "all widths, all sizes of the data base, all K, all points", "why_tests_cant": "Unbounded data bases; an exchanged comparison is right for some points.", "anchors": ["circuit_synthesis/knns/first_nns_comb.v", "circuit_synthesis/knns/first_nns_seq.v", "circuit_synthesis/knns/k_nns_seq.v", "circuit_synthesis/knns_td/first_nns_comb_td.v", "circuit_synthesis/knns_td/first_nns_seq_td.v", "circuit_synthesis/knns_td/k_nns_seq_td.v"]}
{"id": "C75", "title": "Modular multiplication and exponentiation", "statement": "For x, y < n the circuit modmult computes x y mod n; modexp_2N_NN computes m^e mod n after its CC cycles.", "quantifier": "all widths, all operands below the modulus, all admissible numbers of cycles", "why_tests_cant": "Exponentially many operands.", "anchors": ["circuit_synthesis/rsa/modmult.v", "circuit_synthesis/rsa/modexp_2N_NN.v"]}
{"id": "C76", "title": "The stack machine", "statement": "For every program of nop, add, subtract, multiply, push, negate, and, or that never has too few operands nor more than S entries, the output of each cycle of stackMachine is the top of the stack after the instruction.", "quantifier": "all widths, all depths S, all programs of any length", "why_tests_cant": "Unbounded programs.", "anchors": ["circuit_synthesis/stack_machine/stackMachine.v"]}
{"id": "C77", "title": "Memory with three write ports; accumulation of public inputs", "statement": "What select reads in a cycle is what was last written to the address in an earlier cycle (0 if nothing was), where of several enabled ports the first one writes; the output of public_test is the exclusive or of the initial values and all inputs so far.", "quantifier": "all sizes, all sequences of inputs", "why_tests_cant": "Unbounded sequences of writes.", "anchors": ["circuit_synthesis/select/select.v", "circuit_synthesis/public_test/public_test.v"]}
{"id": "C78", "title": "Stable matching", "statement": "From some cycle on, whose number is bounded by the sizes, the output of stable_match_seq is a stable matching for the given preferences, no suitor has a better partner in any other stable matching, and finish is set; the output of stable_match is a stable matching.", "quantifier": "all numbers of suitors and reviewers, all lengths and contents of the lists", "why_tests_cant": "Exponentially many preferences; stability quantifies over all pairs, optimality over all matchings.", "anchors": ["circuit_synthesis/stable_match/stable_match_seq.v", "circuit_synthesis/stable_match/stable_match.v", "circuit_synthesis/stable_match/encoder.v"]}
{"id": "C79", "title": "MIPS processor", "statement": "After t cycles the output of Lite_MIPS is the data memory that the MIPS architecture prescribes after t instructions of the garbler's program on the evaluator's data.", "quantifier": "all programs, all data, all memory sizes, all numbers of cycles", "why_tests_cant": "The space of programs and data is unbounded and each cycle depends on all earlier ones.", "anchors": ["circuit_synthesis/mips/Lite_MIPS.v", "circuit_synthesis/mips/Control.v", "circuit_synthesis/mips/ALU.v", "circuit_synthesis/mips/Data_Mem.v", "circuit_synthesis/mips/PC_Next.v", "circuit_synthesis/mips/Bus_Mux.v", "circuit_synthesis/mips/Reg_Bank.v", "circuit_synthesis/mips/Shifter.v"]}
{"id": "C80", "title": "ARM processor", "statement": "When the circuit a23_gc_main has gone through the first t instructions of a program its output is the output region of the memory that the ARM architecture (version 2a, user mode, without coprocessors and software interrupts) prescribes after t instructions on the inputs of the two parties, and its registers and flags are the prescribed ones; the number of cycles is the sum of one number for each instruction, which depends only on its kind, on whether it is executed and on whether it jumps.", "quantifier": "all programs, all inputs, all sizes of the memories, all numbers of instructions", "why_tests_cant": "The space of programs and data is unbounded; the pipeline makes each cycle depend on several earlier ones.", "anchors": ["circuit_synthesis/a23/a23_core.v", "circuit_synthesis/a23/a23_decode.v", "circuit_synthesis/a23/a23_execute.v", "circuit_synthesis/a23/a23_alu.v", "circuit_synthesis/a23/a23_barrel_shift.v", "circuit_synthesis/a23/a23_multiply.v", "circuit_synthesis/a23/a23_register_bank.v", "circuit_synthesis/a23/a23_mem.v", "circuit_synthesis/a23/a23_gc_main.v"]}
{"id": "C81", "title": "The ARM processor stops when the program is done", "statement": "The circuit a23_gc_main sets terminate when the program arrives at the branch to itself at 0x14, where the start code has it, and not before; from then on the output does not change.", "quantifier": "all programs, all inputs, all sizes of the memories", "why_tests_cant": "The space of programs and data is unbounded.", "anchors": ["circuit_synthesis/a23/a23_core.v:95", "a23/lib/start.S"]}
{"id": "C82", "title": "The technology mapping for yosys implements the operators of Verilog", "statement": "Each module of stdcells_S.v computes the operator that it replaces: sum, difference, negation, product, quotient and remainder (rounded towards zero), comparisons, shifts, and the selections pmux and safe_pmux, of operands of any widths, signed or unsigned, with the result in any width.", "quantifier": "all widths, all operands, signed and unsigned", "why_tests_cant": "Widths are unbounded and operands of usual widths cannot be enumerated.", "anchors": ["circuit_synthesis/lib/stdcells_S.v"]}
{"id": "C83", "title": "The libraries of cells agree with the reader of netlists", "statement": "For each cell of the libraries the names of the ports are those that the reader of netlists knows, and the functions in the Verilog models and in the Liberty files are those that the reader translates the cell to; a flip-flop starts with I and takes over D after each cycle.", "quantifier": "all cells, all values at the ports, all sequences of values", "why_tests_cant": "Testing covers the cells that occur in the synthesised circuits, with one of the libraries.", "anchors": ["circuit_synthesis/lib/dff_full/dff_full.v", "circuit_synthesis/lib/dff_full/dff_full.lib", "circuit_synthesis/lib/asic_cell_yosys.lib", "circuit_synthesis/lib/asic_cell_yosys_extended.lib", "scd/parse_netlist.cpp"]}
{"id": "C84", "title": "The circuit cordic computes the functions of its mode", "statement": "After FRAC + 1 cycles, when terminate is set, the outputs of the circuit cordic are, up to a small error and the known lengthening, in rotation mode the vector (x, y) rotated by z, for the linear functions y + x z and for the hyperbolic functions the hyperbolic rotation, and in vectoring mode the vector turned to the axis and z plus its angle; from then on the outputs do not change.", "quantifier": "all inputs in the range of convergence, all parameters", "why_tests_cant": "The inputs cannot be enumerated, the error is a statement about real functions.", "anchors": ["circuit_synthesis/cordic/cordic.v", "circuit_synthesis/cordic/alpha_table.v", "circuit_synthesis/cordic/barrel_shifter_left.v"]}
{"id": "C85", "title": "The tools put the program of an executable into the memory of the ARM processor", "statement": "amber-elfsplitter and amber-code32.sh turn an executable into p.txt. When TinyGarble reads p.txt as the public initial value of the processor, the memory at each address that a section of the executable occupies holds the byte that the ELF standard prescribes, and the result does not depend on anything but the executable.", "quantifier": "all executables, all contents of uninitialised memory", "why_tests_cant": "The buffer is not initialised and tests see zeros there; files with comments, large arrays or other section types are not tried.", "anchors": ["a23/tools/amber-elfsplitter.c:main", "a23/tools/amber-code32.sh", "a23/include/common.mk", "util/util.cpp:ReadFileOrPassHex"]}
{"id": "C86", "title": "A lost connection is reported", "statement": "When the connection breaks before a party has read and written all the bytes of its run, GarbleStr and EvaluateStr return FAILURE; they never return SUCCESS with an output.", "quantifier": "all circuits, inputs, options, and all points at which the connection can break", "why_tests_cant": "Tests run with working connections; a loss in a particular phase of a run is not tried, and uninitialised memory often hides what happens.", "anchors": ["garbled_circuit/garbled_circuit_high_mem.cpp:GarbleBNHighMem", "garbled_circuit/garbled_circuit_high_mem.cpp:EvaluateBNHighMem", "garbled_circuit/garbled_circuit_low_mem.cpp:GarbleBNLowMem", "garbled_circuit/garbled_circuit_low_mem.cpp:EvaluateBNLowMem", "tcpip/tcpip.cpp:SendData", "tcpip/tcpip.cpp:RecvData"]}
{"id": "C87", "title": "The compiled ARM programs compute what they are meant to", "statement": "With the contents of a23/<program>/p.txt as its program, the circuit a23_gc_main puts into its output memory, for all inputs of the parties, the result that the program is meant to compute (sum, comparison, product, sorted array, Hamming distance, substitution box, AES encryption, SHA3-256 digest, sine and cosine, shortest paths, matrix product), sets terminate for the first time when it is there, and within the 1000 cycles and the 64 words of program memory that a23/README.md gives.", "quantifier": "all inputs, all sizes of the memories into which the program fits, any contents of the rest of the memory", "why_tests_cant": "The inputs are 2048 bits and more; test directories have one or a few pairs of inputs, and a wrong result or a too small number of cycles is only seen for the program that is tried.", "anchors": ["a23/sum/p.txt", "a23/compare/p.txt", "a23/mul/p.txt", "a23/bubble-sort/p.txt", "a23/hamming/p.txt", "a23/cordic/p.txt", "a23/matrix-mul/p.txt", "a23/temp/p.txt", "a23/mem-test/p.txt", "a23/dijkstra/p.txt", "a23/merge-sort/p.txt", "a23/sbox/p.txt", "a23/aes/p.txt", "a23/sha3/p.txt", "a23/README.md", "circuit_synthesis/a23/a23_gc_main.v"]}
{"id": "C88", "title": "Parties with different options find out", "statement": "If Alice and Bob are started with different circuit files, numbers of cycles, output masks, OT settings or memory modes, the check of the options reports it to both, and if the options agree both go on.", "quantifier": "all options of the two parties, all schedules of the connection", "why_tests_cant": "a test runs the two programs with the same options; the check is commented out, and whether its string comparison reads behind the buffer depends on what happens to follow it in memory", "anchors": ["TinyGarble/garbled_circuit/garbled_circuit_main.cpp:53-134", "TinyGarble/garbled_circuit/garbled_circuit_main.cpp:262-325", "tcpip/tcpip.cpp"]}
{"id": "C89", "title": "The three programs do what their options say", "statement": "V2SCD_Main exits with SUCCESS exactly if it has written the circuit file and the mapping file of the netlist it was given. If the circuit file is then given to TinyGarble at both parties, each prints its share of the outputs of the Verilog module or Bristol circuit for the inputs in the options or input files; SCD_Evaluator_Main prints the outputs; a program that cannot do so exits with FAILURE.", "quantifier": "all Verilog modules and Bristol netlists of the accepted form, all options, all contents of the file system, all schedules", "why_tests_cant": "tests call the functions with the arguments the programs would compute and run as a user who may write all files; the exit status of the programs is not tested", "anchors": ["scd/v_2_scd_main.cpp:70-102", "scd/v_2_scd.cpp:27-92", "scd/scd_evaluator_main.cpp:90-133", "TinyGarble/garbled_circuit/garbled_circuit_main.cpp:218-329", "scd/scd.cpp:46-51"]}
{"id": "C90", "title": "The simulation file shows every wire in every cycle", "statement": "The .csv file that EvalauatePlaintext writes is a table with one column for each output of a flip-flop or gate of the netlist, under its name, and one line for each executed cycle, with the values that the netlist gives to these nets.", "quantifier": "all netlists, all inputs, all numbers of cycles and terminate periods, all contents of uninitialised memory", "why_tests_cant": "no test reads the file; a missing last line or missing columns need a circuit with a terminate signal and a comparison with all values of the simulation", "anchors": ["scd/scd_evaluator.cpp:54-70", "scd/scd_evaluator.cpp:197-243", "scd/scheduling.cpp:501-527"]}
{"id": "C91", "title": "The program for a single transfer delivers the selected message or refuses its options", "statement": "Alice's --message0 and --message1 are hexadecimal numerals of up to 128 bits and Bob's --select is 0 or 1; then both programs of OT_main return SUCCESS and Bob logs the value of the message with that number. Other messages and selections are refused.", "quantifier": "all option strings, keys, random values and schedules", "why_tests_cant": "tests call OTSend and OTRecv directly; OT_main and its parsing are not tested", "anchors": ["crypto/OT_main.cpp:40-147", "util/util.cpp:152-188", "crypto/OT.cpp:193-234"]}
{"id": "C92", "title": "MIPS hamming program", "statement": "With hamming.s as the garbler's program, the output of Lite_MIPS has, from some cycle on, in word 1 the number of positions in which the two lists of l words from word 2 and word l + 2 on differ, and the evaluator's words elsewhere.", "quantifier": "all lengths and contents of the lists that fit in the memory, all memory sizes, all numbers of cycles", "why_tests_cant": "The number of cycles and the inputs are unbounded.", "anchors": ["circuit_synthesis/mips/test/benchmarks/hamming.s", "circuit_synthesis/mips/PC_Next.v"]}
{"id": "C93", "title": "The build without logging behaves as the build with logging", "statement": "EvaluateStr and GarbleStr return the same value (SUCCESS or FAILURE) and the same output whether TinyGarble is built with ENABLE_LOG or without it.", "quantifier": "all circuits, inputs, received bytes and places at which the connection is lost", "why_tests_cant": "Tests run in one build and on connections that work; the claim quantifies over all received bytes and all places of a loss.", "anchors": ["util/log.h:73-81", "CMakeLists.txt:71", "garbled_circuit/garbled_circuit.cpp:130-200", "garbled_circuit/garbled_circuit_low_mem.cpp:205-344", "garbled_circuit/garbled_circuit_high_mem.cpp:98-142"]}
{"id": "C94", "title": "Opening and closing connections", "statement": "When ServerInit(port) or ClientInit(ip, port) returns a descriptor, it was not open before and is a connection on this port (accepted from a socket that listens on it, or leading to the address of ip and the port) with TCP_NODELAY on. After ServerClose or ClientClose, and when FAILURE is returned, the process has the same open descriptors as before.", "quantifier": "all ports, hosts, sets of open descriptors and sets of failing system calls", "why_tests_cant": "Tests open one connection on a free port and see no failing system call; the claim quantifies over all combinations of failures and all earlier states.", "anchors": ["tcpip/tcpip.cpp:36-137"]}
{"id": "C95", "title": "Instructions that the ARM circuit does not have", "statement": "swp, swpb, the coprocessor instructions and swi, which the decoder recognises, change neither the output nor a register nor a flag and take one cycle, whatever their condition; the program goes on with the next instruction.", "quantifier": "all sizes of memories, programs, inputs, numbers of instructions and conditions", "why_tests_cant": "The test programs contain no such instruction; the claim quantifies over all programs.", "anchors": ["circuit_synthesis/a23/a23_decode.v:259-271", "circuit_synthesis/a23/a23_decode.v:431-677", "circuit_synthesis/a23/a23_decode.v:829-900"]}
{"id": "C96", "title": "Long executions read and write the right bits", "statement": "The input bit of cycle t and input i is bit t * size + i of the party's number, and the output bit of cycle t and output i becomes bit t * size + i of the result, in the plaintext evaluator and for both parties, for every number of cycles; the loops over the cycles have one iteration per cycle.", "quantifier": "all circuits, inputs and numbers of cycles", "why_tests_cant": "It would take executions with more than 2^31 bits of input or output; the claim quantifies over all numbers of cycles.", "anchors": ["scd/scd_evaluator.cpp:72-196", "garbled_circuit/garbled_circuit_low_mem.cpp:413-417", "garbled_circuit/garbled_circuit_low_mem.cpp:944-946", "garbled_circuit/garbled_circuit_low_mem.cpp:1009-1018", "garbled_circuit/garbled_circuit_high_mem.cpp:731-980"]}
{"id": "C97", "title": "Dumps of the two parties correspond", "statement": "With dumping enabled, the files the two parties write in a run fit together: the table files are equal and contain the rows of the tables sent, in order; the input files have the same number of lines, and each line of the evaluator is the garbler's line, shifted by the offset R exactly if the input bit is 1; the same for the flip-flops that start with a secret bit and for the outputs that are not public; the garbler's key file has R and the key, the evaluator's the key; and the two parties write to different files.", "quantifier": "for all circuits, inputs, labels, numbers of cycles and both memory modes, unless labels collide; all directories", "why_tests_cant": "The dumps are compiled in only with ENABLE_DUMP, which is off in the tests; that the lines correspond for all circuits is a consequence of the invariant of garbling.", "anchors": ["util/log.cpp:49-141", "garbled_circuit/garbled_circuit_low_mem.cpp:109-110,258,386,424,538-539,602,635,741", "garbled_circuit/garbled_circuit_high_mem.cpp:150-151,220,257,373-374,385,458,531,565,676", "garbled_circuit/garbled_circuit_util.cpp:409-414", "garbled_circuit/garbled_circuit_main.cpp:137,183"]}
{"id": "C98", "title": "A passed test means that the parties computed what the test expects, and a correct program passes it", "statement": "TcpipTestRun returns SUCCESS exactly if the connection came about, the child was not killed and both functions returned SUCCESS. A test of a netlist that passes had an execution in which one party returned the string of the plaintext evaluator and the other \"0\"; tests of oblivious transfer and of the connection that pass had an execution in which exactly the selected messages, or the string, were received. Conversely these tests pass in every schedule when nothing goes wrong in the operating system. The program of a suite reports the right numbers, and its exit status shows whether a test failed.", "quantifier": "for all netlists, inputs, modes, randomness and schedules; all messages and selections; all suites of tests and outcomes of assertions", "why_tests_cant": "This is a statement about the tests themselves: which executions they accept. No test tests the tests; whether the exit status is right when a test fails is not seen as long as none fails.", "anchors": ["tcpip/tcpip_testsuit.cpp:34-102", "garbled_circuit/garbled_circuit_testing.cpp:56-106", "garbled_circuit/a23_test_main.cpp:86-139", "garbled_circuit/garbled_circuit_test.cpp:44-1156", "crypto/OT_test.cpp:39-90", "crypto/OT_extension_test.cpp:39-90", "tcpip/tcpip_test.cpp:28-63", "util/minunit.h:65-161"]}
{"id": "C99", "title": "Verilog netlists with errors are refused", "statement": "ParseNetlist returns FAILURE, and Verilog2SCD writes no circuit file, when a module declares a port it does not know or a terminate signal of more than one bit, when an input or the output of a cell is not connected, when a cell is not in the library, or when endmodule is missing; otherwise it reads the module.", "quantifier": "for all texts, layouts and modules", "why_tests_cant": "Tests of the reader use correct netlists of the synthesis tool; the errors of a netlist are combinations of statements that no list of samples covers.", "anchors": ["scd/parse_netlist.cpp:67-414", "scd/v_2_scd.cpp:29-63"]}
{"id": "C100", "title": "Inputs that are not numerals are refused", "statement": "A string given as init value, input or output mask is used as the number that it denotes in hexadecimal; a string that is not a hexadecimal numeral is refused, so that a mistyped input is never silently replaced by another one.", "quantifier": "for all strings, circuits and states of the two parties", "why_tests_cant": "A wrong number leads to a normal run with other outputs; tests give numerals only.", "anchors": ["garbled_circuit/garbled_circuit_util.cpp:70-78", "garbled_circuit/garbled_circuit_low_mem.cpp:1099-1100", "garbled_circuit/garbled_circuit_high_mem.cpp:1031-1032", "scd/scd_evaluator.cpp:267-272"]}
{"id": "C101", "title": "Files that are not Bristol circuits are refused", "statement": "ParseBrisNetlist returns FAILURE, and Bris2SCD writes no circuit file, when a size or a number of a gate is missing or is not a number, when a gate is of another kind than AND, XOR and INV or has a number of inputs that does not belong to its kind, and when there are fewer or more gates than the first number says; the values of variables it does not initialise never matter.", "quantifier": "for all texts and all values of uninitialised variables", "why_tests_cant": "Tests convert one correct file; errors in files and uninitialised variables are not sampled.", "anchors": ["scd/parse_netlist.cpp:446-500", "scd/v_2_scd.cpp:65-98"]}
{"id": "C102", "title": "Distribution of gates over cores", "statement": "TopologicalSortMultiCore orders the gates so that the circuit keeps its function, and Schedule distributes the gates of any netlist over any number of cores: each gate to exactly one core, evenly, in an order in which the cores cannot block each other; a loop in the netlist is reported exactly when there is one, and then the sorting fails.", "quantifier": "all netlists, all numbers of cores, all inputs and cycle counts", "why_tests_cant": "All graphs; the functions have no test and no caller.", "anchors": ["scd/scheduling.cpp:Schedule", "scd/scheduling.cpp:TopologicalSortMultiCore", "scd/scheduling.cpp:FindPath", "scd/scheduling.cpp:GetMinIndex"]}
{"id": "C103", "title": "Doubling and shifting of blocks", "statement": "Double_Block and SlowDouble_Block multiply a block by X in the field of 2^128 elements with the modulus X^128+X^7+X^2+X+1; LeftShift and RightShift shift a block by one bit.", "quantifier": "all blocks", "why_tests_cant": "2^128 blocks; the carries between the words occur for few of them.", "anchors": ["crypto/block.h:Double_Block", "crypto/block.h:SlowDouble_Block", "crypto/block.h:LeftShift", "crypto/block.h:RightShift"]}
{"id": "C104", "title": "Two executions draw no common label", "statement": "The blocks that the label generator returns in one execution of the program differ from all those that it returns in another one, so that labels, global key and offset are not used twice.", "quantifier": "all seeds and numbers of draws", "why_tests_cant": "2^64 pairs of seeds, 2^32 positions in each sequence.", "anchors": ["util/util.cpp:SrandSSE", "util/util.cpp:RandomBlock", "garbled_circuit/garbled_circuit_main.cpp:main"]}
