/-!
# The programs for the ARM processor (a23/*/p.txt)

The words of the programs that the repository contains in compiled form. Each line of a file `p.txt` is one word in hexadecimal; line `i` (from 0) is at
address `4 i`. The first ten words are the start code (a23/lib/start.S:45-66), which sets the stack pointer, passes the addresses of the inputs and the
output, calls `gc_main` and then branches to itself at address `0x14`.
-/

namespace TinyGarble.Hdl.A23.Programs

/-- a23/mul/p.txt:1-17, compiled from a23/mul/mul.c. -/
def mul : List (BitVec 32) := [
  0xe59fd01c#32, 0xe59f000c#32, 0xe59f100c#32, 0xe59f200c#32, 0xeb000004#32, 0xeafffffe#32, 0x01000000#32, 0x02000000#32,
  0x03000000#32, 0x04000100#32, 0xe5900000#32, 0xe5913000#32, 0xe0030390#32, 0xe5823000#32, 0xe1a0f00e#32, 0x00000000#32,
  0x00000000#32]

/-- a23/mem-test/p.txt:1-18, compiled from a23/mem-test/mem-test.c. -/
def memTest : List (BitVec 32) := [
  0xe59fd01c#32, 0xe59f000c#32, 0xe59f100c#32, 0xe59f200c#32, 0xeb000004#32, 0xeafffffe#32, 0x01000000#32, 0x02000000#32,
  0x03000000#32, 0x04000100#32, 0xe3a03000#32, 0xe7823103#32, 0xe2833001#32, 0xe3530040#32, 0x1afffffb#32, 0xe1a0f00e#32,
  0x00000000#32, 0x00000000#32]

/-- a23/sum/p.txt:1-32, compiled from a23/sum/sum.c. -/
def sum : List (BitVec 32) := [
  0xe59fd01c#32, 0xe59f000c#32, 0xe59f100c#32, 0xe59f200c#32, 0xeb000017#32, 0xeafffffe#32, 0x01000000#32, 0x02000000#32,
  0x03000000#32, 0x04000100#32, 0xe92d4010#32, 0xe3a03000#32, 0xe1a0c003#32, 0xe790e003#32, 0xe7914003#32, 0xe35c0001#32,
  0xe0bee004#32, 0xe3a0c000#32, 0x23a0c001#32, 0xe782e003#32, 0xe2833004#32, 0xe353007c#32, 0x1afffff5#32, 0xe590307c#32,
  0xe591107c#32, 0xe35c0001#32, 0xe0a3c001#32, 0xe582c07c#32, 0xe8bd8010#32, 0xeaffffeb#32, 0x00000000#32, 0x00000000#32]

/-- a23/compare/p.txt:1-30, compiled from a23/compare/compare.c. -/
def compare : List (BitVec 32) := [
  0xe59fd01c#32, 0xe59f000c#32, 0xe59f100c#32, 0xe59f200c#32, 0xeb000004#32, 0xeafffffe#32, 0x01000000#32, 0x02000000#32,
  0x03000000#32, 0x04000100#32, 0xe92d4010#32, 0xe241e004#32, 0xe2400004#32, 0xe281107c#32, 0xe3a03001#32, 0xe5b04004#32,
  0xe5bec004#32, 0xe1e0c00c#32, 0xe3530001#32, 0xe0b4c00c#32, 0xe3a03000#32, 0x23a03001#32, 0xe15e0001#32, 0x1afffff6#32,
  0xe2733001#32, 0x33a03000#32, 0xe5823000#32, 0xe8bd8010#32, 0x00000000#32, 0x00000000#32]

/-- a23/bubble-sort/p.txt:1-36, compiled from a23/bubble-sort/bubble-sort.c. -/
def bubbleSort : List (BitVec 32) := [
  0xe59fd01c#32, 0xe59f000c#32, 0xe59f100c#32, 0xe59f200c#32, 0xeb000004#32, 0xeafffffe#32, 0x01000000#32, 0x02000000#32,
  0x03000000#32, 0x04000100#32, 0xe52de004#32, 0xe3a03000#32, 0xe790e103#32, 0xe791c103#32, 0xe02cc00e#32, 0xe782c103#32,
  0xe2833001#32, 0xe3530020#32, 0x1afffff8#32, 0xe3a0101f#32, 0xe1a03002#32, 0xe3a00000#32, 0xe1500001#32, 0xaa000006#32,
  0xe8935000#32, 0xe15c000e#32, 0xc583e000#32, 0xc583c004#32, 0xe2800001#32, 0xe2833004#32, 0xeafffff6#32, 0xe2511001#32,
  0x1afffff2#32, 0xe49df004#32, 0x00000000#32, 0x00000000#32]

/-- a23/matrix-mul/p.txt:1-34, compiled from a23/matrix-mul/matrix-mul.c. -/
def matrixMul : List (BitVec 32) := [
  0xe59fd01c#32, 0xe59f000c#32, 0xe59f100c#32, 0xe59f200c#32, 0xeb000004#32, 0xeafffffe#32, 0x01000000#32, 0x02000000#32,
  0x03000000#32, 0x04000100#32, 0xe92d43f0#32, 0xe3a03000#32, 0xe0825003#32, 0xe3a0e000#32, 0xe0806003#32, 0xe3a0c000#32,
  0xe1a0400c#32, 0xe081700e#32, 0xe4968004#32, 0xe797900c#32, 0xe0244899#32, 0xe28cc00c#32, 0xe35c0024#32, 0x1afffff9#32,
  0xe4854004#32, 0xe28ee004#32, 0xe35e000c#32, 0x1afffff1#32, 0xe283300c#32, 0xe3530024#32, 0x1affffec#32, 0xe8bd83f0#32,
  0x00000000#32, 0x00000000#32]

/-- a23/hamming/p.txt:1-58, compiled from a23/hamming/hamming.c. -/
def hamming : List (BitVec 32) := [
  0xe59fd01c#32, 0xe59f000c#32, 0xe59f100c#32, 0xe59f200c#32, 0xeb000004#32, 0xeafffffe#32, 0x01000000#32, 0x02000000#32,
  0x03000000#32, 0x04000100#32, 0xe92d41f0#32, 0xe3a03000#32, 0xe59f5084#32, 0xe1a04005#32, 0xe3a07001#32, 0xe0856183#32,
  0xe3a0e000#32, 0xe7d08003#32, 0xe7d1c003#32, 0xe02cc008#32, 0xe00cce17#32, 0xe1a0ce5c#32, 0xe7c6c00e#32, 0xe28ee001#32,
  0xe35e0008#32, 0x1afffff6#32, 0xe2833001#32, 0xe3530004#32, 0x1afffff1#32, 0xe3a05001#32, 0xe1a0e315#32, 0xe59f0038#32,
  0xe3a01000#32, 0xe2800002#32, 0xe151000e#32, 0x0a000005#32, 0xe550c002#32, 0xe5506001#32, 0xe08cc006#32, 0xe7c1c004#32,
  0xe2811001#32, 0xeafffff6#32, 0xe2533001#32, 0x2afffff1#32, 0xe5d43000#32, 0xe5823000#32, 0xe8bd81f0#32, 0x000000c4#32,
  0x00000000#32, 0x00000000#32, 0x00000000#32, 0x00000000#32, 0x00000000#32, 0x00000000#32, 0x00000000#32, 0x00000000#32,
  0x00000000#32, 0x00000000#32]

/-- a23/temp/p.txt:1-35, compiled from a23/temp/temp.c. -/
def temp : List (BitVec 32) := [
  0xe59fd01c#32, 0xe59f000c#32, 0xe59f100c#32, 0xe59f200c#32, 0xeb000004#32, 0xeafffffe#32, 0x01000000#32, 0x02000000#32,
  0x03000000#32, 0x04000100#32, 0xe92d4070#32, 0xe3a0e000#32, 0xe1a0300e#32, 0xe790c10e#32, 0xe791410e#32, 0xe08cc004#32,
  0xe08c3003#32, 0xe782310e#32, 0xe790410e#32, 0xe1a05fa4#32, 0xe1a03fa3#32, 0xe791c10e#32, 0xe1a04fac#32, 0xe0256003#32,
  0xe023c004#32, 0xe00cc006#32, 0xe0244005#32, 0xe0233004#32, 0xe023300c#32, 0xe28ee001#32, 0xe35e0020#32, 0x1affffec#32,
  0xe8bd8070#32, 0x00000000#32, 0x00000000#32]

/-- a23/cordic/p.txt:1-71, compiled from a23/cordic/cordic.c. -/
def cordic : List (BitVec 32) := [
  0xe59fd01c#32, 0xe59f000c#32, 0xe59f100c#32, 0xe59f200c#32, 0xeb000004#32, 0xeafffffe#32, 0x01000000#32, 0x02000000#32,
  0x03000000#32, 0x04000100#32, 0xe92d4070#32, 0xe5903000#32, 0xe5910000#32, 0xe0200003#32, 0xe59f404c#32, 0xe3a03000#32,
  0xe1a0e003#32, 0xe59f6044#32, 0xe1a01fc0#32, 0xe021535e#32, 0xe0455001#32, 0xe021c354#32, 0xe04cc001#32, 0xe08ee00c#32,
  0xe796c103#32, 0xe02cc001#32, 0xe04c1001#32, 0xe0400001#32, 0xe2833001#32, 0xe0444005#32, 0xe3530020#32, 0x1afffff1#32,
  0xe5824004#32, 0xe582e000#32, 0xe8bd8070#32, 0x26dd3b6a#32, 0x00000094#32, 0x3243f6a8#32, 0x1dac6705#32, 0x0fadbafc#32,
  0x07f56ea6#32, 0x03feab76#32, 0x01ffd55b#32, 0x00fffaaa#32, 0x007fff55#32, 0x003fffea#32, 0x001ffffd#32, 0x000fffff#32,
  0x0007ffff#32, 0x0003ffff#32, 0x0001ffff#32, 0x0000ffff#32, 0x00007fff#32, 0x00003fff#32, 0x00001fff#32, 0x00000fff#32,
  0x000007ff#32, 0x000003ff#32, 0x000001ff#32, 0x000000ff#32, 0x0000007f#32, 0x0000003f#32, 0x0000001f#32, 0x0000000f#32,
  0x00000008#32, 0x00000004#32, 0x00000002#32, 0x00000001#32, 0x00000000#32, 0x00000000#32, 0x00000000#32]

/-- a23/merge-sort/p.txt:1-97, compiled from a23/merge-sort/merge-sort.c. -/
def mergeSortCode : List (BitVec 32) := [
  0xe59fd01c#32, 0xe59f000c#32, 0xe59f100c#32, 0xe59f200c#32, 0xeb00004c#32, 0xeafffffe#32, 0x01000000#32, 0x02000000#32,
  0x03000000#32, 0x04000100#32, 0xe1520001#32, 0xd1a0f00e#32, 0xeaffffff#32, 0xe92d41f0#32, 0xe1a05000#32, 0xe1a06001#32,
  0xe1a04002#32, 0xe0822001#32, 0xe0822fa2#32, 0xe1a020c2#32, 0xe59f70dc#32, 0xe5872000#32, 0xebfffff2#32, 0xe5971000#32,
  0xe1a02004#32, 0xe2811001#32, 0xe1a00005#32, 0xebffffed#32, 0xe5971000#32, 0xe59f30bc#32, 0xe2812001#32, 0xe5832000#32,
  0xe59fc0b4#32, 0xe5932000#32, 0xe1560002#32, 0xaa000005#32, 0xe2420001#32, 0xe2422107#32, 0xe7952102#32, 0xe78c2100#32,
  0xe5830000#32, 0xeafffff6#32, 0xe59f2090#32, 0xe5821000#32, 0xe59fe084#32, 0xe0840001#32, 0xe5921000#32, 0xe1540001#32,
  0xda000005#32, 0xe281c001#32, 0xe795710c#32, 0xe0401001#32, 0xe78e7101#32, 0xe582c000#32, 0xeafffff6#32, 0xe59f1060#32,
  0xe5816000#32, 0xe59f6050#32, 0xe591e000#32, 0xe154000e#32, 0xba00000e#32, 0xe593c000#32, 0xe796810c#32, 0xe5920000#32,
  0xe7967100#32, 0xe1580007#32, 0xb28cc001#32, 0xb583c000#32, 0xb785810e#32, 0xa2400001#32, 0xa5820000#32, 0xa785710e#32,
  0xe5910000#32, 0xe2800001#32, 0xe5810000#32, 0xeaffffed#32, 0xe8bd81f0#32, 0x0000038c#32, 0x00000388#32, 0x00000300#32,
  0x00000380#32, 0x00000384#32, 0xe52de004#32, 0xe1a0e000#32, 0xe1a00002#32, 0xe3a03000#32, 0xe79ec103#32, 0xe7912103#32,
  0xe022200c#32, 0xe7802103#32, 0xe2833001#32, 0xe3530020#32, 0x1afffff8#32, 0xe3a0201f#32, 0xe3a01000#32, 0xe49de004#32,
  0xeaffffab#32]

/-- a23/merge-sort/p.txt:1-229; lines 98 to 229 are zero. -/
def mergeSort : List (BitVec 32) := mergeSortCode ++ List.replicate 132 0

/-- a23/dijkstra/p.txt:1-88, compiled from a23/dijkstra/dijkstra.c. -/
def dijkstraCode : List (BitVec 32) := [
  0xe59fd01c#32, 0xe59f000c#32, 0xe59f100c#32, 0xe59f200c#32, 0xeb000004#32, 0xeafffffe#32, 0x01000000#32, 0x02000000#32,
  0x03000000#32, 0x04000100#32, 0xe92d47f0#32, 0xe24dd020#32, 0xe3a03000#32, 0xe59f611c#32, 0xe1a04006#32, 0xe3a0c000#32,
  0xe0839006#32, 0xe0808003#32, 0xe0817003#32, 0xe798a10c#32, 0xe797510c#32, 0xe025500a#32, 0xe789510c#32, 0xe28cc001#32,
  0xe35c0008#32, 0x1afffff8#32, 0xe2833020#32, 0xe3530c01#32, 0x1afffff1#32, 0xe3a03000#32, 0xe59f00dc#32, 0xe1a01003#32,
  0xe7820103#32, 0xe78d1103#32, 0xe2833001#32, 0xe3530008#32, 0x1afffffa#32, 0xe5821000#32, 0xe3a0c007#32, 0xe3a05001#32,
  0xe59f60b4#32, 0xe59f10b0#32, 0xe3a03000#32, 0xe7927103#32, 0xe79d0103#32, 0xe1570001#32, 0xd3500000#32, 0x03a00001#32,
  0x13a00000#32, 0xe3500000#32, 0x11a0e003#32, 0x11a01007#32, 0xe2833001#32, 0xe3530008#32, 0x1afffff3#32, 0xe1a0010e#32,
  0xe28d3020#32, 0xe0833000#32, 0xe5035020#32, 0xe0820000#32, 0xe084828e#32, 0xe3a03000#32, 0xe590a000#32, 0xe7989103#32,
  0xe08a7009#32, 0xe79d1103#32, 0xe2711001#32, 0x33a01000#32, 0xe15a0006#32, 0x03a01000#32, 0xe3590000#32, 0x03a01000#32,
  0x12011001#32, 0xe7929103#32, 0xe1570009#32, 0xa3a01000#32, 0xb2011001#32, 0xe3510000#32, 0x17827103#32, 0xe2833001#32,
  0xe3530008#32, 0x1affffeb#32, 0xe25cc001#32, 0x1affffd4#32, 0xe28dd020#32, 0xe8bd87f0#32, 0x00000300#32, 0x00007fff#32]

/-- a23/dijkstra/p.txt:1-257; lines 89 to 257 are zero. -/
def dijkstra : List (BitVec 32) := dijkstraCode ++ List.replicate 169 0

/-- a23/sbox/p.txt:1-232, compiled from a23/sbox/sbox.c. -/
def sbox : List (BitVec 32) := [
  0xe59fd01c#32, 0xe59f000c#32, 0xe59f100c#32, 0xe59f200c#32, 0xeb0000d7#32, 0xeafffffe#32, 0x01000000#32, 0x02000000#32,
  0x03000000#32, 0x04000100#32, 0xe92d4ff0#32, 0xe24dd044#32, 0xe1a02220#32, 0xe2022001#32, 0xe1a0e120#32, 0xe20ee001#32,
  0xe022300e#32, 0xe58d3008#32, 0xe1a093a0#32, 0xe1a0c0a0#32, 0xe20cc001#32, 0xe029700c#32, 0xe0223009#32, 0xe58d300c#32,
  0xe02e3009#32, 0xe58d3010#32, 0xe1a03320#32, 0xe2033001#32, 0xe1a04d00#32, 0xe0234fa4#32, 0xe2008001#32, 0xe0245008#32,
  0xe0222005#32, 0xe58d2020#32, 0xe59d2008#32, 0xe0222007#32, 0xe58d2014#32, 0xe0292005#32, 0xe58d2024#32, 0xe02c2005#32,
  0xe58d2018#32, 0xe02e2009#32, 0xe59d1018#32, 0xe0222001#32, 0xe58d2028#32, 0xe1a00e00#32, 0xe59d2014#32, 0xe0220fa0#32,
  0xe02ea000#32, 0xe0200003#32, 0xe028300a#32, 0xe58d303c#32, 0xe024300a#32, 0xe58d301c#32, 0xe59d300c#32, 0xe0233000#32,
  0xe58d3004#32, 0xe0283003#32, 0xe58d302c#32, 0xe024300a#32, 0xe59d2004#32, 0xe0233002#32, 0xe58d3030#32, 0xe0244002#32,
  0xe59d3014#32, 0xe003e00a#32, 0xe0076004#32, 0xe59d300c#32, 0xe0033002#32, 0xe59d2008#32, 0xe59d1030#32, 0xe0021001#32,
  0xe0232001#32, 0xe59d1010#32, 0xe59dc01c#32, 0xe001c00c#32, 0xe023b00c#32, 0xe020000e#32, 0xe59d3028#32, 0xe028100a#32,
  0xe0033001#32, 0xe0233000#32, 0xe0233002#32, 0xe59d1020#32, 0xe0081001#32, 0xe59d0010#32, 0xe0211000#32, 0xe59d001c#32,
  0xe0211000#32, 0xe02ee001#32, 0xe02ee00b#32, 0xe59d1018#32, 0xe0051001#32, 0xe0211007#32, 0xe0211004#32, 0xe0211006#32,
  0xe0211002#32, 0xe0299004#32, 0xe0266009#32, 0xe59d2024#32, 0xe59d002c#32, 0xe002c000#32, 0xe026600c#32, 0xe02bc006#32,
  0xe023900e#32, 0xe0033001#32, 0xe02c6003#32, 0xe0090006#32, 0xe020000e#32, 0xe021b00c#32, 0xe023300e#32, 0xe003300b#32,
  0xe02c2003#32, 0xe0263002#32, 0xe00cc003#32, 0xe0211002#32, 0xe021100c#32, 0xe02cc006#32, 0xe00cc000#32, 0xe02cc009#32,
  0xe021300c#32, 0xe58d3034#32, 0xe0203002#32, 0xe020900c#32, 0xe0226001#32, 0xe021e00c#32, 0xe02ee003#32, 0xe0088002#32,
  0xe58d8038#32, 0xe0044009#32, 0xe005500c#32, 0xe59d802c#32, 0xe0088000#32, 0xe58d802c#32, 0xe59d8030#32, 0xe008b00e#32,
  0xe59d8028#32, 0xe0088001#32, 0xe58d8028#32, 0xe0099007#32, 0xe59d7008#32, 0xe007e00e#32, 0xe58de030#32, 0xe59de00c#32,
  0xe00e8003#32, 0xe59de030#32, 0xe028800e#32, 0xe59de018#32, 0xe00cc00e#32, 0xe59de02c#32, 0xe02cc00e#32, 0xe58dc008#32,
  0xe00ae006#32, 0xe02ee004#32, 0xe59d7038#32, 0xe0277009#32, 0xe027700e#32, 0xe028a005#32, 0xe59dc004#32, 0xe003300c#32,
  0xe0244003#32, 0xe024400b#32, 0xe59d301c#32, 0xe59dc034#32, 0xe003300c#32, 0xe02bb003#32, 0xe02bb00a#32, 0xe59d3014#32,
  0xe0066003#32, 0xe59d3028#32, 0xe0266003#32, 0xe026600a#32, 0xe0255004#32, 0xe59d3024#32, 0xe0033000#32, 0xe0233007#32,
  0xe023300b#32, 0xe59d003c#32, 0xe0011000#32, 0xe0211006#32, 0xe0266004#32, 0xe59d0008#32, 0xe0299000#32, 0xe029900b#32,
  0xe2299001#32, 0xe1a09089#32, 0xe0277008#32, 0xe0277000#32, 0xe2277001#32, 0xe1896386#32, 0xe02ee001#32, 0xe1876006#32,
  0xe59d0038#32, 0xe59dc02c#32, 0xe020800c#32, 0xe0211008#32, 0xe186620e#32, 0xe59d0020#32, 0xe0022000#32, 0xe59d0028#32,
  0xe0222000#32, 0xe0222003#32, 0xe1861181#32, 0xe1810102#32, 0xe02ee005#32, 0xe22ee001#32, 0xe3c00040#32, 0xe180030e#32,
  0xe59d2010#32, 0xe59d1034#32, 0xe0022001#32, 0xe59d1030#32, 0xe0222001#32, 0xe0255003#32, 0xe0255002#32, 0xe2255001#32,
  0xe3c00020#32, 0xe1800285#32, 0xe20000ff#32, 0xe28dd044#32, 0xe8bd8ff0#32, 0xe92d4010#32, 0xe1a04002#32, 0xe5900000#32,
  0xe5913000#32, 0xe0200003#32, 0xe20000ff#32, 0xebffff25#32, 0xe5840000#32, 0xe8bd8010#32, 0x00000000#32, 0x00000000#32]

/-- a23/aes/p.txt:1-426, compiled from a23/aes/aes.c. -/
def aesCode : List (BitVec 32) := [
  0xe59fd01c#32, 0xe59f000c#32, 0xe59f100c#32, 0xe59f200c#32, 0xeb000117#32, 0xeafffffe#32, 0x01000000#32, 0x02000000#32,
  0x03000000#32, 0x04000100#32, 0xe92d4070#32, 0xe59fc044#32, 0xe49c5004#32, 0xe1a00200#32, 0xe3a03000#32, 0xe085e003#32,
  0xe0801003#32, 0xe08c1001#32, 0xe3a02000#32, 0xe5de6000#32, 0xe7d14002#32, 0xe0244006#32, 0xe4ce4001#32, 0xe2822001#32,
  0xe3520004#32, 0x1afffff8#32, 0xe2833004#32, 0xe3530010#32, 0x1afffff1#32, 0xe8bd8070#32, 0x000006ac#32, 0xe59f3064#32,
  0xe5933000#32, 0xe5d32001#32, 0xe5d31005#32, 0xe5c31001#32, 0xe5d31009#32, 0xe5c31005#32, 0xe5d3100d#32, 0xe5c31009#32,
  0xe5c3200d#32, 0xe5d32002#32, 0xe5d3100a#32, 0xe5c31002#32, 0xe5c3200a#32, 0xe5d32006#32, 0xe5d3100e#32, 0xe5c31006#32,
  0xe5c3200e#32, 0xe5d32003#32, 0xe5d3100f#32, 0xe5c31003#32, 0xe5d3100b#32, 0xe5c3100f#32, 0xe5d31007#32, 0xe5c3100b#32,
  0xe5c32007#32, 0xe1a0f00e#32, 0x000006ac#32, 0xe92d4ff0#32, 0xe24dd044#32, 0xe1a02220#32, 0xe2022001#32, 0xe1a0e120#32,
  0xe20ee001#32, 0xe022300e#32, 0xe58d3008#32, 0xe1a093a0#32, 0xe1a0c0a0#32, 0xe20cc001#32, 0xe029700c#32, 0xe0223009#32,
  0xe58d300c#32, 0xe02e3009#32, 0xe58d3010#32, 0xe1a03320#32, 0xe2033001#32, 0xe1a04d00#32, 0xe0234fa4#32, 0xe2008001#32,
  0xe0245008#32, 0xe0222005#32, 0xe58d2020#32, 0xe59d2008#32, 0xe0222007#32, 0xe58d2014#32, 0xe0292005#32, 0xe58d2024#32,
  0xe02c2005#32, 0xe58d2018#32, 0xe02e2009#32, 0xe59d1018#32, 0xe0222001#32, 0xe58d2028#32, 0xe1a00e00#32, 0xe59d2014#32,
  0xe0220fa0#32, 0xe02ea000#32, 0xe0200003#32, 0xe028300a#32, 0xe58d303c#32, 0xe024300a#32, 0xe58d301c#32, 0xe59d300c#32,
  0xe0233000#32, 0xe58d3004#32, 0xe0283003#32, 0xe58d302c#32, 0xe024300a#32, 0xe59d2004#32, 0xe0233002#32, 0xe58d3030#32,
  0xe0244002#32, 0xe59d3014#32, 0xe003e00a#32, 0xe0076004#32, 0xe59d300c#32, 0xe0033002#32, 0xe59d2008#32, 0xe59d1030#32,
  0xe0021001#32, 0xe0232001#32, 0xe59d1010#32, 0xe59dc01c#32, 0xe001c00c#32, 0xe023b00c#32, 0xe020000e#32, 0xe59d3028#32,
  0xe028100a#32, 0xe0033001#32, 0xe0233000#32, 0xe0233002#32, 0xe59d1020#32, 0xe0081001#32, 0xe59d0010#32, 0xe0211000#32,
  0xe59d001c#32, 0xe0211000#32, 0xe02ee001#32, 0xe02ee00b#32, 0xe59d1018#32, 0xe0051001#32, 0xe0211007#32, 0xe0211004#32,
  0xe0211006#32, 0xe0211002#32, 0xe0299004#32, 0xe0266009#32, 0xe59d2024#32, 0xe59d002c#32, 0xe002c000#32, 0xe026600c#32,
  0xe02bc006#32, 0xe023900e#32, 0xe0033001#32, 0xe02c6003#32, 0xe0090006#32, 0xe020000e#32, 0xe021b00c#32, 0xe023300e#32,
  0xe003300b#32, 0xe02c2003#32, 0xe0263002#32, 0xe00cc003#32, 0xe0211002#32, 0xe021100c#32, 0xe02cc006#32, 0xe00cc000#32,
  0xe02cc009#32, 0xe021b00c#32, 0xe0203002#32, 0xe020900c#32, 0xe0226001#32, 0xe02be003#32, 0xe0088002#32, 0xe58d8034#32,
  0xe0044009#32, 0xe005500c#32, 0xe59d802c#32, 0xe0088000#32, 0xe58d802c#32, 0xe59d8030#32, 0xe008800e#32, 0xe58d8030#32,
  0xe59d8028#32, 0xe0088001#32, 0xe58d8028#32, 0xe0099007#32, 0xe59d7008#32, 0xe007e00e#32, 0xe58de038#32, 0xe59de00c#32,
  0xe00e8003#32, 0xe59de038#32, 0xe028800e#32, 0xe59de018#32, 0xe00cc00e#32, 0xe59de02c#32, 0xe02cc00e#32, 0xe58dc008#32,
  0xe00ae006#32, 0xe02ee004#32, 0xe59d7034#32, 0xe0277009#32, 0xe027700e#32, 0xe028a005#32, 0xe59dc004#32, 0xe003300c#32,
  0xe0244003#32, 0xe59d3030#32, 0xe0244003#32, 0xe59d301c#32, 0xe003300b#32, 0xe59dc030#32, 0xe023300c#32, 0xe023300a#32,
  0xe59dc014#32, 0xe006600c#32, 0xe59dc028#32, 0xe026600c#32, 0xe026600a#32, 0xe0255004#32, 0xe59dc024#32, 0xe000000c#32,
  0xe0200007#32, 0xe0200003#32, 0xe59dc03c#32, 0xe001100c#32, 0xe0211006#32, 0xe0266004#32, 0xe59dc008#32, 0xe029900c#32,
  0xe0299003#32, 0xe2299001#32, 0xe1a09089#32, 0xe0277008#32, 0xe027700c#32, 0xe2277001#32, 0xe1896386#32, 0xe02ee001#32,
  0xe1876006#32, 0xe59d3034#32, 0xe59dc02c#32, 0xe023800c#32, 0xe0288001#32, 0xe186120e#32, 0xe59d3020#32, 0xe0022003#32,
  0xe59d3028#32, 0xe0222003#32, 0xe0222000#32, 0xe1811188#32, 0xe1811102#32, 0xe02ee005#32, 0xe22ee001#32, 0xe3c11040#32,
  0xe181130e#32, 0xe59d3010#32, 0xe003300b#32, 0xe59d2038#32, 0xe0233002#32, 0xe0255000#32, 0xe0255003#32, 0xe2255001#32,
  0xe3c11020#32, 0xe1811285#32, 0xe20100ff#32, 0xe28dd044#32, 0xe8bd8ff0#32, 0xe92d4070#32, 0xe59f3030#32, 0xe5934000#32,
  0xe2846004#32, 0xe3a05000#32, 0xe7d40105#32, 0xebffff26#32, 0xe7c40105#32, 0xe2855001#32, 0xe3550004#32, 0x1afffff9#32,
  0xe2844001#32, 0xe1560004#32, 0x1afffff5#32, 0xe8bd8070#32, 0x000006ac#32, 0xe92d4ff0#32, 0xe24dd014#32, 0xe1a05002#32,
  0xe2413001#32, 0xe2422001#32, 0xe281100f#32, 0xe5f3c001#32, 0xe5e2c001#32, 0xe1530001#32, 0x1afffffb#32, 0xe59f31ec#32,
  0xe5835000#32, 0xe58300b4#32, 0xe2833004#32, 0xe2802010#32, 0xe5d01000#32, 0xe5c31000#32, 0xe5d01001#32, 0xe5c31001#32,
  0xe5d01002#32, 0xe5c31002#32, 0xe5d01003#32, 0xe5c31003#32, 0xe2800004#32, 0xe2833004#32, 0xe1500002#32, 0x1afffff3#32,
  0xe59f41ac#32, 0xe3a06004#32, 0xe28d700c#32, 0xe59f81a4#32, 0xe3a03000#32, 0xe7d42003#32, 0xe7c32007#32, 0xe2833001#32,
  0xe3530004#32, 0x1afffffa#32, 0xe3160003#32, 0x1a000013#32, 0xe5dda00c#32, 0xe5dd300e#32, 0xe58d3004#32, 0xe5ddb00f#32,
  0xe5dd000d#32, 0xebfffef0#32, 0xe1a09000#32, 0xe59d3004#32, 0xe1a00003#32, 0xebfffeec#32, 0xe5cd000d#32, 0xe1a0000b#32,
  0xebfffee9#32, 0xe5cd000e#32, 0xe1a0000a#32, 0xebfffee6#32, 0xe5cd000f#32, 0xe7d80126#32, 0xe0200009#32, 0xe5cd000c#32,
  0xe554200c#32, 0xe5dd300c#32, 0xe0233002#32, 0xe5c43004#32, 0xe554200b#32, 0xe5dd300d#32, 0xe0233002#32, 0xe5c43005#32,
  0xe554200a#32, 0xe5dd300e#32, 0xe0233002#32, 0xe5c43006#32, 0xe5542009#32, 0xe5dd300f#32, 0xe0233002#32, 0xe5c43007#32,
  0xe2866001#32, 0xe2844004#32, 0xe356002c#32, 0x1affffcf#32, 0xe3a00000#32, 0xebfffe9b#32, 0xe3a04001#32, 0xe2856010#32,
  0xe3a0701b#32, 0xebffff9a#32, 0xebfffeab#32, 0xe1a03005#32, 0xe5d3c000#32, 0xe5d30001#32, 0xe02ca000#32, 0xe5d31002#32,
  0xe5d3e003#32, 0xe021800e#32, 0xe02a2008#32, 0xe1a093aa#32, 0xe0090997#32, 0xe029908a#32, 0xe02ca002#32, 0xe029900a#32,
  0xe5c39000#32, 0xe020a001#32, 0xe1a093aa#32, 0xe0090997#32, 0xe029908a#32, 0xe0200002#32, 0xe0200009#32, 0xe5c30001#32,
  0xe1a003a8#32, 0xe0000097#32, 0xe0200088#32, 0xe0211002#32, 0xe0211000#32, 0xe5c31002#32, 0xe02cc00e#32, 0xe1a013ac#32,
  0xe0010197#32, 0xe021c08c#32, 0xe022200e#32, 0xe022200c#32, 0xe5c32003#32, 0xe2833004#32, 0xe1560003#32, 0x1affffdb#32,
  0xe1a00004#32, 0xebfffe6f#32, 0xe2844001#32, 0xe20440ff#32, 0xe354000a#32, 0x1affffd2#32, 0xebffff6d#32, 0xebfffe7e#32,
  0xe1a00004#32, 0xe28dd014#32, 0xe8bd4ff0#32, 0xeafffe65#32, 0x000006ac#32, 0x000006bc#32, 0x0000069c#32, 0x0402018d#32,
  0x40201008#32, 0x00361b80#32]

/-- a23/aes/p.txt:1-474; lines 427 to 474 are zero. -/
def aes : List (BitVec 32) := aesCode ++ List.replicate 48 0

end TinyGarble.Hdl.A23.Programs
