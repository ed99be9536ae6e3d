# Formal model of TinyGarble (Lean 4)

Source: `/repo` (esonghori/TinyGarble at the pinned commit). Properties: `properties.jsonl`.
Status of each property, with the exact theorem names: `MANIFEST.json`.
Wrong-program experiments: `seeded/LOG.jsonl`.

## 1. Method

* The C++ functions are re-written as small Lean functions (`lean/Verif/Model/*`). Every definition
  cites file and lines; simplifications are stated there. Loops are folds, structural recursion or
  `partial_fixpoint` (where the loop may run for ever). Undefined behaviour (reading outside of an
  array, shifting too far, following a missing pointer) is a distinct outcome (`Outcome.undef`,
  `Proc.undef`, `none`), never a convenient default.
* Specifications that do not mention the model's helpers are in `lean/Verif/Spec/*`: the Boolean
  function of a gate, the equations of a sequential circuit, executions of two processes joined by
  two byte queues, when a text describes a Bristol circuit or a Verilog module, what a view is.
* Property theorems are in `lean/Verif/Props/*`, named `Cxx_…`, with an `example` beside each group
  that shows a concrete non-trivial case meeting the hypotheses. Helper lemmas: `lean/Verif/Proof/*`.
* Where the code violates a property, the negation is proved with a concrete witness (or in general),
  and the strongest true variant is kept; a theorem that proves only part of the claim ends in `_partial`.

## 2. Trusted base

* Lean 4.33.0 kernel; axioms `propext`, `Classical.choice`, `Quot.sound` only (checked with
  `#print axioms` for every theorem in the manifest). No `sorry`, no added axioms, no `native_decide`,
  no `bv_decide`, no `implemented_by`.
* The transcription of C++ into Lean, by reading: the code is not executed.
* Build configuration. `ENABLE_LOG` is off by default and on in the Debug build (CMakeLists.txt:71-74).
  With it the `CHECK*` macros return `FAILURE`, without it they ignore failures (util/log.h:59-82). The
  protocol is modelled with the checks. Numbering and parsing have a parameter `log` for both builds.
* Libraries by contract: OpenSSL `BN_*` on natural numbers (values, and the number of 64-bit words
  where that matters), RSA key generation (any key that satisfies the RSA equations), `EVP` digest
  (arbitrary function), POSIX `read`/`write` (any short count, error or end), iostream extraction and
  insertion of numbers and words, `std::map`/`std::string` by value. Boost option parsing is not modelled.
* AES: an arbitrary function of the block in all protocol theorems (so that they hold for AES in particular);
  `crypto/aes.h` itself is the subject of C53, with Intel's definitions of the SSE and AES instructions.
* Sizes, indices and loop counters are natural numbers unless a definition says otherwise; conversions
  to `int`, `uint32_t`, `short` that the code performs on data are modelled (C16, C27, C37). `Model/Wrap` has the
  positions of input and output bits as `int` (C96).
* Uninitialised memory is an arbitrary parameter of the model; theorems quantify over it.
* The scheduler is arbitrary: protocol theorems hold for every interleaving of the two parties.

## 3. What is modelled

| Module | Code |
|---|---|
| `Model/Block` | `crypto/block.h`, gate constants of `util/common.h`, `GateOperator`, `Type2V` |
| `Model/Gate` | `garbled_circuit_util.cpp`: `GarbleGate`, `EvalGate`, `HalfGarbleGate`, `HalfEvalGate`, `InvertSecretValue`, known-value evaluation |
| `Model/Circuit` | `GarbledCircuit`, wire layout, `FillFanout`, `ReduceFanout`, `NumOfNonXor` |
| `Model/Cycle`, `Model/Run` | one cycle, and all cycles, of `GarbleLowMem`, `EvaluateLowMem`, `GarbleHighMem`, `EvaluateHighMem` (without the transport) |
| `Model/Proc`, `Model/Net` | processes over byte queues; `SendData`, `RecvData` over arbitrary return values of `write`/`read` |
| `Model/Protocol` | `GarbleBN…`/`EvaluateBN…` of both modes: opening message, label generation, label transfer with and without OT, tables, outputs, terminate, mask |
| `Model/StrApi` | `GarbleStr`, `EvaluateStr`, `EvalauatePlaintextStr` |
| `Model/Plain` | `EvalauatePlaintext` |
| `Model/BN`, `Model/OT`, `Model/OTExt` | `crypto/BN.cpp`, `OT.cpp`, `OT_extension.cpp` |
| `Model/Aes` | `crypto/aes.h` |
| `Model/Rng` | `SrandSSE`, `RandomBlock` |
| `Model/Scd` | `WriteSCD`, `ReadSCD` on the characters of the file |
| `Model/Sort`, `Model/Sched` | `scheduling.cpp`: `TopologicalSort`, `SortNetlist`, `QuickSort`, `TopSort` |
| `Model/MultiCore` | `scheduling.cpp`: `GetMinIndex`, `DFS`, `FindPath`, `Schedule`, `TopologicalSortMultiCore` (no callers) |
| `Model/BlockShift` | `block.h`: `Double_Block`, `SlowDouble_Block`, `LeftShift`, `RightShift` (no callers) |
| `Model/Netlist`, `Model/Verilog`, `Model/Mapping` | `parse_netlist.cpp`: `ParseNetlist`, `ParseBrisNetlist`, `IdAssignment`; `v_2_scd.cpp`; `WriteMapping` |
| `Model/A23`, `Model/A23Aes`, `Model/A23Sha3`, `Model/A23Cordic` | the C programs for the ARM core, `a23/*/*.c`, without mem-test |
| `Model/Hdl/Lib`, `Model/Hdl/Seq` | Verilog: `circuit_synthesis/syn_lib`; `sum`, `compare`, `hamming`, `mult`, `matrix_mult`, `non_secret_test`, `argmax`, `encoder` |
| `Model/Hdl/Aes`, `Model/Hdl/Sha3` | Verilog: `circuit_synthesis/aes`, `circuit_synthesis/sha3` |
| `Model/Hdl/Knns`, `Model/Hdl/Rsa`, `Model/Hdl/Machines` | Verilog: `knns`, `knns_td`; `rsa` (`modmult`, `modexp_2N_NN`); `stack_machine`, `select`, `public_test` |
| `Model/Hdl/Stable` | Verilog: `stable_match` |
| `Model/Hdl/Mips` | Verilog: `mips` (all modules except `Mult`, which is not connected) |
| `Model/Hdl/MipsPrograms` | `mips/test/benchmarks/hamming.s`, in the encodings of three assemblers |
| `Model/Hdl/A23` | Verilog: `a23`, all modules; registers that are never used are left out. `Spec/Arm` has no `swp`, `swi` and coprocessor instructions |
| `Model/Hdl/Stdcells` | `circuit_synthesis/lib/stdcells_S.v` |
| `Model/Cells` | `circuit_synthesis/lib`: `dff_full.v`, and of the Liberty files the attributes `function` and `ff` (the text; read by `Spec/Liberty`) |
| `Model/Hdl/Cordic` | Verilog: `cordic` |
| `Model/Elf` | `a23/tools`: `amber-elfsplitter.c`, `amber-code32.sh` (`grep` and `awk` on bytes) |
| `Model/Lost` | both parties on a connection that breaks: `Proc` with limited input and output, and the functions of high-memory mode whose failures the caller ignores (`garbled_circuit_high_mem.cpp`, `tcpip.cpp:SendData`, `RecvData`) |
| `Model/Hdl/A23Programs`, `Model/Hdl/A23ProgramSha3` | the words of `a23/*/p.txt` for mul, mem-test, sum, compare, bubble-sort, matrix-mul, hamming, temp, cordic, merge-sort, dijkstra, sbox, aes, sha3, verbatim |
| `Model/Main` | `main` of `v_2_scd_main.cpp`, `scd_evaluator_main.cpp` and `garbled_circuit_main.cpp` after the parsing of the options, with a file system and write permissions; `CheckOptionsAlice`, `CheckOptionsBob` |
| `Model/Csv` | the `.csv` file of `EvalauatePlaintext` (`scd_evaluator.cpp:54-70, 215-243`) |
| `Model/OtMain` | crypto/OT_main.cpp:40-147: the program for a single transfer, from the options; the socket is open |
| `Model/Quiet` | both parties built without `ENABLE_LOG` (`util/log.h:73-81`): failing transfers and tests are ignored |
| `Model/Socket` | opening and closing sockets (`tcpip.cpp:36-137`), with the descriptors, ports and connections of the process; any system call may fail |
| `Model/Wrap` | the plaintext evaluator and the reading of input bits with conversions to `int`, loop counters that are `uint` |
| `Spec/ArmAbsent` | not code: the machine of `Spec/ArmCircuit` with instructions that do nothing (C95) |
| `Model/Dump` | `DUMP` lines of `GarbleLowMem`, `EvaluateLowMem`, `GarbleHighMem`, `EvaluateHighMem`, `EvalGate`; `Dump`, the prefix in `LogInitial` and in `main`; the run is that of `Model/Run` (labels as parameters, no early termination); a file is the sequence of lines one party writes |
| `Model/TestRun` | tcpip/tcpip_testsuit.cpp, garbled_circuit_testing.cpp, the tests of a23_test_main.cpp, garbled_circuit_test.cpp, OT_test.cpp, OT_extension_test.cpp, tcpip_test.cpp (as programs; their concrete inputs are parameters), the counters of util/minunit.h and the exit status of the test programs |
| `Model/InputFile` | `ReadFileOrPassHex`; `a23_main_testing.cpp` |
| `Model/Str` | string helpers of `util.cpp` and of `garbled_circuit_util.cpp` |

Not modelled: option parsing (by boost) and the other `main` functions, 
logging and timing (`RDTSC`), `eval_garbled_circuit.cpp` (runs the
programs and prints timings), memory allocation, the other unit tests (`util_test.cpp`, `BN_test.cpp`, `scd_evaluator_test.cpp`, `v_2_scd_test.cpp`, except for their `main`), the other Verilog sources, `mips/test/benchmarks/aes.S`, the logic synthesis (an external tool) and the compiler
of the ARM programs (C is read as C, with undefined behaviour; their inline assembly by ARM's definitions).

## 4. How each property is proved

Protocol and circuits

* C02–C05 — case analysis over gate types with XOR algebra on `BitVec 128`.
* C06, C07, C08, C09 — a symbolic run in which labels are formal XORs of fresh generators is the common
  abstraction of garbler and evaluator (`Spec/Symbolic`, `Proof/CycleSim`, `Proof/EvalSim`); induction over
  gates, then cycles. The only hypothesis on randomness is that no two labels agree by accident on the 64
  bits that `CmpBlock` compares (`NoCollisionG`).
* C01, C12, C13, C14 — the two parties as processes joined by byte queues (`Spec/Talk`); confluence, then
  one completing run, built phase by phase (`Proof/Protocol`, `Proof/Transfer`). C01: against
  `EvalauatePlaintext`; C33 relates that to the equations. Partial because the code violates the full claim:
  outputs lost by the evaluator (C10), secret terminate signal (C13), small buffers with OT (C14).
* C10, C11 — induction over outputs. The evaluator loses a public 1 (witness).
* C39, C38 — counting; injectivity of the tweak.
* C46 — the label functions draw from pairwise different positions of the random stream.
* C52 — for two inputs with the same revealed outputs, the coins are shifted (labels by the change of the
  wire values times the offset, cipher at the hidden points by what keeps the tables); the shift is a
  bijection of good coins that keeps the view (`Proof/Privacy`). Ideal cipher, semi-honest evaluator,
  conditioned on good coins.
* C55 — union bound over uses of the cipher and gates (`Proof/Accident`, `Proof/Count`). Labels are linear in
  free values (offset, labels, outputs of the cipher at the garbled gates); the cipher is programmed so that any
  choice of the free values arises from as many coins (`Proof/Program`). With C52: bound on the advantage.
* C56 — C55's bound and C01: without an accident of the garbler, and when no secret gate is superfluous, the
  evaluator has none either (`Proof/Chance`). With superfluous gates the evaluator's labels are those of a second
  garbling, whose tables for these gates are the evaluator's random rows (`Proof/Virtual`, `Proof/Smooth`): the map
  from the garbler's choices to those of the second garbling is injective for fixed inputs and rows, so C55's bound
  counts the choices with an accident there too; what still counts at the end of a cycle never depends on a
  superfluous gate (`Proof/Clean`, `Proof/EvalCheck`).

Transport, arithmetic, oblivious transfer

* C15, C16 — loops over arbitrary return values. C16 is false from 2^31 bytes on (negation proved).
* C17–C19, C23 — arithmetic on natural numbers. `SendBN` loses the sign (negation).
* C20, C21 — RSA correctness from Fermat's little theorem. C21 is false: a 1024-bit secret reduced modulo N
  is not uniform (ratio 2:1 for every key); proved for a uniform secret, with a bound on the bias.
* C22, C25, C44 — bit-vector algebra and a bijection; C44 is false for more than 1024 messages.
* C24 — false (zero padding after the number); exact characterisation of the collisions.
* C26 — false: the global key is the whole state of the generator. Attack functions are proved to recover
  the offset, the garbler's private initial values and inputs.
* C53 — bytes of registers against FIPS-197 states; lanes of the key expansion against the word recurrence; S-box
  facts over all 256 bytes; linearity of the column mixing.
* C41 — odd multipliers are units modulo 2^32. C43 — false (only the low half is compared).

* C64 — undefined behaviour as an outcome of programs facing arbitrary bytes (`Spec/Feed`): compositional invariant for
  the garbler, exact cause for the evaluator, and bytes that lead there.

Circuit files and compilers

* C27, C47 — round trip on characters; damaged files are accepted (negation of C47): each number that is missing at the end
  of a file is the one in memory, by induction over the loops of `ReadSCD` (C47_read); a word that is no number is read as 0, and
  nothing after it (C47_false_word).
* C28, C29, C42, C48 — DFS invariant; meaning as the unique solution of the gate equations, preserved by
  renumbering; quicksort as in-place permutation.
* C30, C31, C32, C49, C50, C51 — parser invariant over tokens against an abstract syntax of modules
  (`Spec/Verilog`) and circuits (`Spec/Bristol`); numbering against the layout; composition with C48.
* C54 — composition of C51/C50, C27, C33, C01 and C34: from the text of a module to the strings of both parties.
* C65 — composition of C49's numbering, the renumbering of C48 and uniqueness of the circuit's values.
* C40 — false (return value ignored).

Programs for the ARM core

* C57–C61 — loop invariants; the carry chain as a number; merge sort as a partial function with global variables;
  Dijkstra's invariant against walks (`Spec/A23`).
* C62 — the S-box circuit is run once on 256-bit vectors (one bit for each input byte) with a simulation lemma;
  rounds and key schedule against FIPS-197 as in C53.
* C63 — lanes against the state bits of FIPS-202, step by step; the buffered sponge against padding and absorbing
  the whole message (`Proof/A23Sponge`).
* C66 — no overflow by bounds on the integers; the computed vector against an exact product of complex rotations, whose
  angle is a sum of ± arctan 2^-k; the table against the series of arctan; all constants by exact rational arithmetic.

Circuit library (`circuit_synthesis`; Verilog is read with two-valued signals, a circuit is a function of its inputs and
registers, `generate` loops are folds; widths are those of the ports)

* C69 — the carry chain against `BitVec.carry`, then numbers; division and square root by the invariant of restoring
  division, bit by bit; `COUNT` by induction over its recursive instances.
* C70, C71 — induction over the cycles with the value of the registers as invariant.
* C72 — each module refines the transformation of FIPS-197 on states; the S-box table is compared with the field inverse on all
  256 bytes. The round register after cycle t is the input of round t.
* C73 — each lane of `round` against the steps of FIPS-202; invariant over the cycles. The counterexample is the state of zeros,
  which a round without constant leaves unchanged.
* C74 — the chain of `min_item` is insertion into a sorted list (invariant: registers = sorted list of all points so far, padded);
  the tree of `first_nns` by induction over the points.
* C75 — one step for all operands; wrong results by evaluation of the circuit on concrete operands.
* C76, C77 — refinement: the registers hold the abstract stack / memory; induction over the cycles.
* C78 — invariant of deferred acceptance on the registers; each two cycles make a proposal while a suitor wants to, so
  2 S Ks cycles suffice; optimality by the invariant that a rejected pair is in no stable matching.
* C79 — refinement: the registers of the circuit represent a state of the machine of `Spec/Mips`; one lemma per class of
  instructions (ALU, shifts, loads, stores, branches, jumps), one case per encoding, then induction over the cycles. C79_branches_partial also has the taken
  branches: the circuit is the machine of the manual for the program with all offsets smaller by one (`Instr.early`).
* C80 — refinement: `R` relates the registers of the pipeline to a state of the machine of `Spec/Arm` (`Proof/Hdl/A23Pipe`); for each
  kind of instruction a lemma that leads from `R` to `R` in the stated number of cycles (`A23Dp`, `A23Branch`, `A23Mul`, `A23Transfer`,
  `A23Multi*`), with an invariant over the registers still to do for multiple loads and stores; then induction over the instructions (`A23Run`).
* C81 — the same relation, three cycles per branch to itself; that `terminate` is not set before: in each cycle of each kind of instruction the
  address or the next address is one that the program counter determines (`Proof/Hdl/A23Stop`), with an induction for multiple transfers;
  what programs must not do is `Ordinary` in `Spec/ArmStop`.
* C82 — on bit vectors and integers; invariants over the stages of the shifter, over the partial products and over the stages of the divider.
* C83 — case distinction over the cells, for all values at the ports; the flip-flop by induction over the cycles.
* C84 — the analysis of C66 for any table and any start; while no coordinate is negative the words stand for the integers of that
  analysis, and the angles of the intermediate vectors stay between 0 and π/2 for the stated angles.

* C85 — invariant over the sections: the buffer holds the last section copied to an address, else what `malloc` returned; then C67 for
  the lines of `p.txt`. `Spec/Elf` says which byte the ELF standard puts at an address.
* C86 — `Model/Lost`: a connection has a list of bytes that can be read and a number of bytes that can be written, then it is lost. Low-memory
  mode by induction on the program: what lacks a byte fails. High-memory mode: the failing function is followed by the transfer of the outputs; a
  simulation between the garbler that reports all failures and the one that ignores them shows that a secret output of the first cycle reveals the
  loss to the garbler, if the values of the terminate signal are public; with a secret terminate signal the garbler, and in any case the evaluator,
  returns SUCCESS (negations, for all circuits).
* C80/C81 for what the circuit does where it differs from the manual: the machine `Spec/ArmCircuit` has the flags, `mla` and conditional jumps of the
  circuit (`C80_circuit_partial`); `A23Manual` shows that it is the machine of the manual in the cases of `Supported`.
* C87 — symbolic execution (`A23Sym*`): an abstract state knows some registers and words; executing an instruction yields a list of
  micro-operations on the unknown rest, and soundness says that the circuit does these micro-operations in the stated number of cycles. Each
  iteration of each loop of a program is executed in the kernel (`check`), which covers all inputs since these are unknown; then invariants over
  the micro-operations of the loops (carries, largest word so far and permutation, sums of bits). In dijkstra the address of the row depends on the
  data: `A23SymLeads` adds conditions on states (Hoare triples), so that the nearest vertex, once it is shown to be below 8, is one of eight cases;
  the rounds are then those of the C model, whose invariant `DInv` gives shortest walks. The time bound needs no condition on the graph.
  In merge-sort the positions `i` and `j` are cases in the same way; the result is `Spec/Merge`. The function of sbox, a sequence of operations on
  bits, is evaluated for all 256 bytes at once (`A23SymTrack`: a value is a number with 256 parts of 32 bits, on which bitwise operations and shifts
  are exact). In aes (`A23SymFlow`) the bytes and words that a block of instructions stores are checked in the kernel to be given expressions over the
  state before it (`shows`), for each position in the program that a loop can be at; the calls of the substitution box save and restore what the
  caller needs (`call`), and the blocks are the steps of `KeySchedule` and `rounds`. In sha3 the expressions are resolved to single bits
  (`A23SymBits`): each of the 1600 bits of the state after theta, after rho and pi, after chi and after iota is checked to be the exclusive disjunction
  of bits of the state before it that FIPS-202 gives.
* C88 — the two checks are dual processes (`Dual`), so by the lemma for all schedules they end as they do alone; the undefined read is
  an execution of the model. The programs without the check: one execution computed in the kernel, all others by confluence (`ending`).
* C89 — case analysis of the programs, then C51 and C54 for the text in the file; for Bristol netlists C50, C54 and C65; files with errors by C99,
  C101 and C47.
* C90 — the lines of the mapping file (C65) are split into name and number; the loop that writes the file is the loop of the simulation with one
  more cycle, which counts the lines; C49 for the values.
* C91 — C36 for the messages, C20 for the transfer. C45 tells exactly which messages are refused (C91_refused_iff_partial); a selection is 1 iff the number one comes first in it (C91_select).
* C92 — symbolic execution of the 16 instructions on the machine of the manual with an invariant at `loop`, by induction over the words; then
  C79_branches_partial. For the words as the manual says the same invariant shows that the store is never reached.
* C93 — without a failure the two builds do the same (refinement of programs; in high-memory mode, where the test of the number of tables returns
  early, by the induction of C14 over the cycles, with C07 for the test); without logging no program of the evaluator's parts returns FAILURE,
  by induction over the programs.
* C94 — case analysis over the system calls that fail; the lowest free descriptor is not open by counting.
* C95 — the decoder sets no control signal for these types of instructions, so that one cycle keeps `R` with the next program counter
  (`Proof/Hdl/A23Absent`); the machine is `Spec/ArmAbsent`.
* C96 — the conversion to `int` is the identity below 2^31; above, the plaintext evaluator on the inputs is the one without conversions on the inputs
  whose bits repeat (induction over the cycles).
* C97 — the lines both parties dump (`Model/Dump`) are computed along the run of `Model/Run`; the evaluator's table lines are logged in its loop over the gates and shown by induction to be the first `ind` tables of its buffer, which C07 identifies with the tables sent; inputs and flip-flops follow from the labels, outputs from C01. Outputs only in high-memory mode and names only after `LogInitial`: both full claims are refuted (defects 42, 43).
* C98 — executions of a program that checks its result are executions of the program (`checked_steps`, by induction over
  steps), so that a passed test yields an execution with the expected results, and `AlwaysFinishes` (C01, C20, C22) carries over to the
  tests; the counters of minunit by induction over assertions and tests. The plaintext evaluator's string and Bob's are the same because
  both show the same outputs and a string is determined by what it shows (`showsRun_unique`). The test of the processor is the instance in
  which Bob gets all outputs, so that none is lost.
* C99 — induction over the words of a statement up to the first error; the proper statements before it by C30; the end of a module is reached only
  at `endmodule`, by cases over all branches for a word.
* C100 — the number that `BN_hex2bn` reads as the value of a prefix, by induction over the string; the programs of the parties are equal since they
  use the numbers only.
* C101 — each `>>` either leaves the stream bad for good or has read a number with something behind it (`readU64_good`); a bad stream gives the empty
  word as kind, which is refused. So a file is read iff it has the described form (`Spec/BristolFile`), whatever the uninitialised variables hold.
* C102 — the gates placed so far, in the order of their placement, are an invariant of the loop of `Schedule` (`CInv`), with the part of each core; a
  round places every gate whose operands are placed, and one exists in a netlist without a cycle, since `TopologicalSort` gives an order (C28). The
  function follows with the renumbering lemmas of C29, `FindPath` with the invariant of C28 and the wires reachable from its roots.
* C103 — bit by bit: each of the 128 bits of the results is computed for an arbitrary block.
* C104 — `Model/Rng`. Two lanes of the seeded state are equal; how often 2 divides their difference after `d` steps shows that they are equal
  again only if 2^31 divides `d` (induction on the exponent, with the closed form of C41).

Strings: C34–C37, C45 — functions on lists of characters, with the defects listed below. Files: C67, C68 — line t of a
file is a field of the number, by induction over the lines.

Security in the computational sense (polynomial-time adversaries, RSA and hash assumptions) is not
expressed. Covered are information-theoretic statements (C11, C21, C25, C44, C52, C55) and outright breaks
(C24, C26, C44).

## 5. Defects of the code found (each with a theorem)

1. A secret terminate signal deadlocks: `EvaluateTransferTerminate` receives twice (C13_secret_terminate_deadlocks).
2. The evaluator drops outputs with public value 1 below the mask's top bit; in `last_clock` mode a stale
   bit remains (C10_evaluator_loses_output, C12_strings_differ).
3. `CmpBlock` compares only the low 64 bits (C43_cmpBlock_not_exact).
4. The key sent in the clear is the generator's state: the evaluator computes the garbler's secrets (C26_*).
5. Lengths are truncated to `int`: from 44739243 tables on nothing is sent (C16_large_transfers_dropped).
6. `SortNetlist` tests `> 0`, so wire 0 is not renumbered (C29_wire_zero_lost); constants as outputs index
   outside of an array (C29_constant_output); `WriteSCD` overflows an `int` (C27_large_index).
7. `ReadSCD` ignores stream errors (C47_empty_file_accepted, C47_false_early_end, C47_false_word); `EvalauatePlaintextStr` ignores the failure of
   the evaluation (C40_success_without_evaluation).
8. Hash inputs are padded at the wrong end (C24_hash_inputs_collide).
9. `SendBN` drops the sign (C17_sign_lost).
10. Base OT: selection bit biased (C21_selection_not_hidden); rows longer than 1024 bits leak selections to
    the sender (C44_upper_selections_leak); both parties may block on full buffers (C14_ot_can_deadlock).
11. String helpers: smallest 64-bit number (C35_min_undefined), 2^16 hexadecimal digits (C35_long_lost), 256
    outputs (C37_outputs_lost), garbage accepted by `Str2Block` (C45_garbage_accepted), every string of at most 15 characters among it (C45_false_short);
    it reads all numbers of up to 13 digits after `0x` as 0 (C45_false_prefix, C45_false_prefix_long).
12. Netlists: order of assignments matters (C49_assignment_order); without `ENABLE_LOG` undriven nets become
    wire 0 (C49_undriven_accepted); made-up names may collide with nets (C30_collision); unknown cells are
    dropped (C30_unknown_cell, C99_false_unknown_cell), missing ports accepted (C30_unconnected); a file without `endmodule` is read
    for ever (C51_no_endmodule); Bristol outputs that are inputs are undriven (C50_overlap).
13. `QuickSort` of an empty array reads `arr[0]` (C42_empty_reads_outside).
14. Programs for the ARM core: merge-sort.c does not sort (C57_merge_sort_wrong); the portable sum.c overflows, the
    portable compare.c compares signed words, temp.c writes outside of its output (C58_*); hamming.c counts modulo 256
    (C59_hamming_eight_words); dijkstra.c overflows (C60_overflow); `getSBoxValue` uses `t[8]` and `z[2]` of arrays
    with 8 and 2 elements (C62_aes_undefined, C62_sbox_undefined); sha3.c pads outside of its buffer when the inputs fill
    a block, and drops the garbler's bytes for longer inputs (C63_block_undefined, C63_garbler_ignored).

15. The evaluator does not compare the announced number of tables with its buffer: a malicious garbler makes it write
    behind the buffer, for every circuit (C64_evaluator_overflow).
16. Input files with carriage returns: all lines but the last are ignored (C67_crlf).
17. Circuit library: `SHIFT_LEFT` and `SHIFT_RIGHT` are exchanged (C69_shifts_reversed); `mult.v` with several cycles
    ignores the upper part of the evaluator's number (C71_mult_truncates).
18. `sha3_seq.v`: `rc_i` receives its first one at the end of the first cycle, so the first cycle adds no round constant and all
    others come one cycle late (C73_seq_late, C73_seq_fails). In both Keccak circuits the 576 input bits are the last nine lanes, not
    the first nine, which are the rate of SHA3-512 (C73_input_lanes); there is no padding.
19. `knns`, `knns_td`: the multiplexers of `first_nns_comb(_td)` have their inputs exchanged: the output is the first of the *farthest*
    points (C74_first_is_farthest, C74_first_fails). `first_nns_seq(_td)` begin with the least distance in the register, so nothing is
    ever nearer and the output stays 0 (C74_first_seq_zero); `first_nns_seq.v` also reads an undeclared `DBi`. `k_nns_seq_td.v` has `assign min_val_out = o`
    in the wrong direction.
20. `rsa`: the multiplexers of `modmult` and `modexp_2N_NN` have their inputs exchanged: products and powers are wrong (C75). In
    `modexp_1_N.v` the output has no driver and `c` is not declared.
21. `stackMachine.v`: the label `3'd8` is 0, so the xor instruction does not exist (C76_no_xor).
22. `stable_match_seq.v`: `finishAND` begins with 0, so `finish` is never set (C78_never_finishes). `stable_match.v`: `wIsMatch` is only written
    where it is already set, so each proposal is accepted and the women's preferences are ignored (C78_ignores_preferences); a
    man released would not be marked free either (`else if (wen2)`); the test `wIndex + 1 == w` never holds for woman 0 (C78_hangs).
23. `mips`: a taken branch goes to `pc + 4 imm` instead of `pc + 4 + 4 imm` (C79_branch); `sltiu` zero-extends its immediate (C79_sltiu); `lb`
    takes the sign from bit 7 of the word at all offsets (C79_load_byte), `lh` from bit 16 in the upper half (C79_load_half); `j` and
    `jal` use the region of the jump, not of the next instruction (C79_jump); overflows cause no exception (C79_overflow); `Mult` is
    not connected, so `mfhi` and `mflo` give 0 (C79_hi_lo). `lwl` and `lwr`, which
    `aes.S` uses, load whole words (C79_unaligned). Also, without a theorem: `swl` writes a whole word, `swr` does nothing; `mfc0`/`mtc0` access the general registers; `syscall` jumps to `$31`; the address of instructions has two
    bits more than the memory (undefined; `none` in the model).
24. `a23` (C80_false_*, C81_false_premature): shifts by a register use its lowest five bits; `lsr #32`, `asr #32` and `rrx` do not shift;
    `adcs`, `sbcs` and `rscs` clear N, Z and V; `ands` and `tst` of an unshifted operand clear the carry; instructions that write to the
    program counter do so even if their condition does not hold (`movle pc, lr` of the compiled merge sort is one); `mla` does not add
    (the compiled matrix product uses it); the second of two multiplications in sequence has the result of the first; a store to the next
    instruction comes too late; an empty multiple load whose condition does not hold skips the next instruction; `terminate` is
    also set by a multiple load of the words at `0x18` and `0x1c`.
25. `asic_cell_yosys_extended.lib` (C83_extended_dff_false): the flip-flop has `preset : I` and `clear : RST`, so it stays set as long
    as its initial value is 1. `asic_cell_yosys.lib` (C83_yosys_pin_false): the outputs are named `Y`, which the reader of netlists does not know.
26. `cordic` (C84_false_*): the shifter is logical, so negative coordinates are shifted to large positive ones, which happens for angles
    near 0, near the right angle and below 0; `DIR_VEC` chooses the direction by `x[L-1] & y[L-1]`; with 32 bits the table of the circular
    functions is used for the linear ones too (the `else` of alpha_table.v:128 belongs to `L == 32`); the hyperbolic steps shift by one place too few.
27. `amber-elfsplitter` (C85_not_allocated, C85_uninitialised, C85_outside): the flag that says whether a section occupies memory is
    ignored, so a comment overwrites the start of the program (the makefile removes `.comment` and `.note` beforehand); one word too many is
    printed, from uninitialised memory, so the public inputs of the two parties may differ; the buffer is twice as long as the file,
    whatever the addresses are.
28. High-memory mode ignores the return values of `GarbleHighMem` and `EvaluateHighMem`: when the connection is lost during the transfer of the
    tables, the evaluator returns SUCCESS and prints an output from uninitialised memory, 0 when that is zero (C86_evaluator_false). The
    garbler returns SUCCESS when the evaluator does not answer to a secret terminate signal (C86_garbler_false).
29. `a23/matrix-mul/p.txt` uses `mla`, whose addition the circuit leaves out: each entry of the result is the last of its three products
    (C87_matrix_mul_last_product, C87_false_matrix_mul).
30. `a23/README.md` runs every program for 1000 cycles; hamming needs 1278, merge-sort 2693, bubble-sort 10736, dijkstra 4097, sha3 45555 and aes 84767, so `terminate` is not set by then
    (C87_false_thousand_cycles). The circuit that it names has 64 words of memory for the program (`a23.dcsh`), but cordic has 71, sbox 232,
    merge-sort 229, dijkstra 257, aes 474 and sha3 831 (C87_false_code_memory).
31. `a23/merge-sort/p.txt` returns from its recursion by `movle pc, lr`, which the circuit executes as if the condition held
    (C80_false_conditional_jump); so it merges the two halves without having sorted them (C87_merge_sort_unsorted_halves, C87_false_merge_sort).
32. The check that both parties use the same options is commented out (`garbled_circuit_main.cpp:271, 308`), and it compares a received string
    without terminating zero as a C string (C88_check_undefined). With different masks both programs print wrong outputs and end with
    SUCCESS (C88_false).
33. SCD_Evaluator_Main ignores the status of `EvalauatePlaintextStr` (C89_evaluator_exit_status).
34. `ReadSCD` opens the circuit file with `std::ios::out`, so a file without write permission counts as missing (C89_write_protected).
35. The `.csv` file has no line for the cycle in which the circuit terminates (`scd_evaluator.cpp:205` leaves the loop before the writing;
    C90_false_last_cycle), and reading the mapping file stops at the first cell called `terminate` although the line for the terminate signal is
    the last one (`scd_evaluator.cpp:222, 235`; C90_false_cells).
36. `OT_main` takes every `--select` other than 1 as 0 (C91_not_refused), and sends 0 for `0x` and up to 13 digits (C91_false_prefix).
37. `mips/test/benchmarks/hamming.s` does not work on the MIPS circuit, because of the branches: in the encoding of the manual it loops forever
    (C92_false_manual), and with delay slots it counts all words, not only those that differ (C92_false_delay_slots).
38. Built without `ENABLE_LOG`, the default of `CMakeLists.txt`, neither party reports a lost connection: the evaluator returns SUCCESS with a wrong
    output (C93_false, C93_false_garbler, C93_false_example): `CHECK` then ignores all failures.
39. `ServerInit` and `ClientInit` leave their sockets open when they fail (C94_false_server, C94_false_client), take ports modulo 65536
    (C94_false_port), and a second `ServerInit` overwrites the global `listenfd` of the first (C94_false_two).
40. `a23` ignores `swp`, `swi` and the coprocessor instructions, which the decoder recognises (C95_false_swap, C95_false_swi).
41. Positions of bits are converted to `int`: from 2^31 on, output bits are lost (C96_false_output), from 2^32 on, bits of inputs are read again, except
    by the garbler for its own (C96_false_garbler); loops with a `uint` counter do not end for 2^32 cycles (C96_false_loop).
42. `GarbleLowMem` has no `DUMP("output")` where `GarbleHighMem` and both evaluators have one, so in low-memory mode the garbler's output file is never written (`C97_false_outputs`).
43. `LogInitial` appends `alice-` or `bob-` to `dump_prefix`, but `main` (garbled_circuit_main.cpp:183) binds its own option `dump_directory` to the same variable, and `po::notify` overwrites the prefix with the bare directory: both parties, run with the same directory, write to the same five files (`C97_false_names`).
44. If the `.map` or `.csv` file of a netlist cannot be opened, the tests of netlists compare the garbled execution with "0": they fail for a correct execution with other outputs, and pass for one that wrongly gives 0 (`C98_false_missing_files`).
45. The test programs that use minunit (garbled_circuit_test.cpp:1155, util_test.cpp:98, BN_test.cpp:155, scd_evaluator_test.cpp:498, v_2_scd_test.cpp:70) return 0 whatever fails, so ctest, which decides by the exit status, reports success (`C98_false_exit`).
46. `ParseInitInputStr` and the readers of the mask ignore the result of `BN_hex2bn`: no string is refused, all inputs and masks with the prefix `0x`
    are 0, and what follows a numeral is ignored (C100_false_prefix, C100_false_rest, C100_false_plaintext).
47. `ParseBrisNetlist` ignores what follows the announced gates (C101_false_superfluous), and accepts an AND gate with a single input, which is compiled
    with wire -1 as its second input (C101_false_arity).
48. In the unused `TopologicalSortMultiCore`: no gates lead to a read outside of an array (C102_no_gate), a cycle to an endless loop
    (C102_false_cycle), an unread gate to the report of a loop (C102_false_loop), and the terminate signal keeps its old number
    (C102_false_terminate).
49. The unused `LeftShift` loses the bit that crosses the halves of a block, and `RightShift` shifts to the left (C103_false_left, C103_false_right).
50. The labels are seeded with the time in seconds (garbled_circuit_main.cpp:140): two executions that begin in the same second use the same labels,
    from which an evaluator of both learns the offset (C104_false).
51. The test of the processor reads the path of a missing file (program or input) as a hexadecimal number, which is 0 for an absolute path, and
    passes as if the file contained 0 (C98_false_a23_missing).

Seen but not the subject of a theorem: 12 uninitialised padding bytes are sent with each table; gates, D
inputs and outputs that refer to init wires read uninitialised memory; unknown gate types are garbled as
AND; `_mm_load_si128` on addresses that
may be unaligned; `SendBN`/`RecvBN` release an array with `delete` instead of `delete[]`;
`$add` of stdcells_S.v has an input `C` that the cell of yosys does not have.
