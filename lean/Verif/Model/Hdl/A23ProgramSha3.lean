/-!
# The program sha3 for the ARM processor (a23/sha3/p.txt)

As in `A23Programs`. The variables of the program (`ctx`, `C` and `D` of a23/sha3/sha3.c) are part of the file: they follow the constants, from word 724 on.
-/

namespace TinyGarble.Hdl.A23.Programs

/-- a23/sha3/p.txt:1-722, compiled from a23/sha3/sha3.c. -/
def sha3Code : List (BitVec 32) := [
  0xe59fd01c#32, 0xe59f000c#32, 0xe59f100c#32, 0xe59f200c#32, 0xeb000026#32, 0xeafffffe#32, 0x01000000#32, 0x02000000#32,
  0x03000000#32, 0x04000100#32, 0xe59f2078#32, 0xe5923150#32, 0xe2831008#32, 0xe3510088#32, 0x82411088#32, 0x8afffffc#32,
  0xe52de004#32, 0xe5821150#32, 0xe3530000#32, 0x1a000002#32, 0xe59f3054#32, 0xe2802008#32, 0xea00000d#32, 0xe2631088#32,
  0xe59f2044#32, 0xe0833002#32, 0xe3510008#32, 0x9080c001#32, 0x8280c008#32, 0xe1a02000#32, 0xe152000c#32, 0x14d2e001#32,
  0x15e3e001#32, 0x1afffffb#32, 0xe3510008#32, 0x9affffef#32, 0xe49df004#32, 0xe1500002#32, 0x14d01001#32, 0x15e31001#32,
  0x1afffffb#32, 0xe49df004#32, 0x00000b50#32, 0x00000c17#32, 0xe92d4ff0#32, 0xe24dd0a4#32, 0xe1a04001#32, 0xe58d203c#32,
  0xebffffd8#32, 0xe1a00004#32, 0xebffffd6#32, 0xe59fc9a8#32, 0xe59c2150#32, 0xe28c30c8#32, 0xe0832002#32, 0xe2831088#32,
  0xe3a00000#32, 0xe1520001#32, 0x14c20001#32, 0x1afffffc#32, 0xe59c1150#32, 0xe7d32001#32, 0xe3822006#32, 0xe7c32001#32,
  0xe5dc314f#32, 0xe1e03c83#32, 0xe1e03ca3#32, 0xe5cc314f#32, 0xe89c0003#32, 0xe28c30c8#32, 0xe893000c#32, 0xe0224000#32,
  0xe0235001#32, 0xe88c0030#32, 0xe28c1008#32, 0xe8910003#32, 0xe28c30d0#32, 0xe893000c#32, 0xe0224000#32, 0xe0235001#32,
  0xe58c4008#32, 0xe58c500c#32, 0xe28c1010#32, 0xe8910003#32, 0xe28c30d8#32, 0xe893000c#32, 0xe0224000#32, 0xe0235001#32,
  0xe58c4010#32, 0xe58c5014#32, 0xe28c1018#32, 0xe8910003#32, 0xe28c30e0#32, 0xe893000c#32, 0xe0224000#32, 0xe0235001#32,
  0xe58c4018#32, 0xe58c501c#32, 0xe28c1020#32, 0xe8910003#32, 0xe28c30e8#32, 0xe893000c#32, 0xe0224000#32, 0xe0235001#32,
  0xe58c4020#32, 0xe58c5024#32, 0xe28c1028#32, 0xe8910003#32, 0xe28c30f0#32, 0xe893000c#32, 0xe0224000#32, 0xe0235001#32,
  0xe58c4028#32, 0xe58c502c#32, 0xe28c1030#32, 0xe8910003#32, 0xe28c30f8#32, 0xe893000c#32, 0xe0224000#32, 0xe0235001#32,
  0xe58c4030#32, 0xe58c5034#32, 0xe28c1038#32, 0xe8910003#32, 0xe28c3c01#32, 0xe893000c#32, 0xe0224000#32, 0xe0235001#32,
  0xe58c4038#32, 0xe58c503c#32, 0xe28c1040#32, 0xe8910003#32, 0xe28c3f42#32, 0xe893000c#32, 0xe0224000#32, 0xe0235001#32,
  0xe58c4040#32, 0xe58c5044#32, 0xe28c1048#32, 0xe8910003#32, 0xe28c3e11#32, 0xe893000c#32, 0xe0224000#32, 0xe0235001#32,
  0xe58c4048#32, 0xe58c504c#32, 0xe28c1050#32, 0xe8910003#32, 0xe28c3f46#32, 0xe893000c#32, 0xe0224000#32, 0xe0235001#32,
  0xe58c4050#32, 0xe58c5054#32, 0xe28c1058#32, 0xe8910003#32, 0xe28c3e12#32, 0xe893000c#32, 0xe0224000#32, 0xe0235001#32,
  0xe58c4058#32, 0xe58c505c#32, 0xe28c1060#32, 0xe8910003#32, 0xe28c3f4a#32, 0xe893000c#32, 0xe0224000#32, 0xe0235001#32,
  0xe58c4060#32, 0xe58c5064#32, 0xe28c1068#32, 0xe8910003#32, 0xe28c3e13#32, 0xe893000c#32, 0xe0224000#32, 0xe0235001#32,
  0xe58c4068#32, 0xe58c506c#32, 0xe28c1070#32, 0xe8910003#32, 0xe28c3f4e#32, 0xe893000c#32, 0xe0224000#32, 0xe0235001#32,
  0xe58c4070#32, 0xe58c5074#32, 0xe28c1078#32, 0xe8910003#32, 0xe28c3d05#32, 0xe893000c#32, 0xe0224000#32, 0xe0235001#32,
  0xe58c4078#32, 0xe58c507c#32, 0xe28c1080#32, 0xe8910003#32, 0xe28c3f52#32, 0xe893000c#32, 0xe0224000#32, 0xe0235001#32,
  0xe58c4080#32, 0xe58c5084#32, 0xe59f3750#32, 0xe58d3038#32, 0xe3a03000#32, 0xe58d300c#32, 0xe59f373c#32, 0xe59f8738#32,
  0xe288ef56#32, 0xe1a02008#32, 0xe3a0c000#32, 0xe8b200c0#32, 0xe2821020#32, 0xe8910003#32, 0xe2825048#32, 0xe8950030#32,
  0xe0209004#32, 0xe021a005#32, 0xe0294006#32, 0xe02a5007#32, 0xe2827070#32, 0xe89700c0#32, 0xe0240006#32, 0xe0251007#32,
  0xe2827098#32, 0xe89700c0#32, 0xe0264000#32, 0xe0275001#32, 0xe8ae0030#32, 0xe28cc001#32, 0xe35c0005#32, 0x1affffea#32,
  0xe2837e16#32, 0xe89700c0#32, 0xe1a02087#32, 0xe1822fa6#32, 0xe58d2014#32, 0xe1a02086#32, 0xe1822fa7#32, 0xe58d2010#32,
  0xe28d1010#32, 0xe8910003#32, 0xe2835f5e#32, 0xe8950030#32, 0xe0200004#32, 0xe0211005#32, 0xe5830180#32, 0xe5831184#32,
  0xe2835f5a#32, 0xe8950030#32, 0xe283bf56#32, 0xe89b0c00#32, 0xe1a02085#32, 0xe1822fa4#32, 0xe58d201c#32, 0xe1a02084#32,
  0xe1822fa5#32, 0xe58d2018#32, 0xe28d1018#32, 0xe8910003#32, 0xe020000a#32, 0xe021100b#32, 0xe5830188#32, 0xe583118c#32,
  0xe2832e17#32, 0xe8920006#32, 0xe88d0006#32, 0xe59d2004#32, 0xe1a02082#32, 0xe59d1000#32, 0xe1822fa1#32, 0xe58d2024#32,
  0xe1a02081#32, 0xe59d1004#32, 0xe1822fa1#32, 0xe58d2020#32, 0xe28d2020#32, 0xe8920006#32, 0xe0211006#32, 0xe0222007#32,
  0xe1a06001#32, 0xe1a07002#32, 0xe5836190#32, 0xe5837194#32, 0xe593217c#32, 0xe1a02082#32, 0xe5931178#32, 0xe1822fa1#32,
  0xe58d202c#32, 0xe1a02081#32, 0xe593117c#32, 0xe1822fa1#32, 0xe58d2028#32, 0xe28d2028#32, 0xe8920006#32, 0xe0211004#32,
  0xe0222005#32, 0xe1a04001#32, 0xe1a05002#32, 0xe5834198#32, 0xe583519c#32, 0xe1a0208b#32, 0xe1822faa#32, 0xe58d2034#32,
  0xe1a0208a#32, 0xe1822fab#32, 0xe58d2030#32, 0xe28d1030#32, 0xe8910003#32, 0xe89d0030#32, 0xe0244000#32, 0xe0255001#32,
  0xe1a00004#32, 0xe1a01005#32, 0xe58301a0#32, 0xe58311a4#32, 0xe59fe58c#32, 0xe24e2d06#32, 0xe3a0c000#32, 0xe8be0030#32,
  0xe8920003#32, 0xe0206004#32, 0xe0217005#32, 0xe8a200c0#32, 0xe2821020#32, 0xe8910003#32, 0xe0206004#32, 0xe0217005#32,
  0xe5826020#32, 0xe5827024#32, 0xe2821048#32, 0xe8910003#32, 0xe0206004#32, 0xe0217005#32, 0xe5826048#32, 0xe582704c#32,
  0xe2821070#32, 0xe8910003#32, 0xe0206004#32, 0xe0217005#32, 0xe5826070#32, 0xe5827074#32, 0xe2821098#32, 0xe8910003#32,
  0xe0206004#32, 0xe0217005#32, 0xe5826098#32, 0xe582709c#32, 0xe28cc001#32, 0xe35c0005#32, 0x1affffdf#32, 0xe5932008#32,
  0xe593100c#32, 0xe1a00081#32, 0xe180bfa2#32, 0xe1a02082#32, 0xe1822fa1#32, 0xe58d2000#32, 0xe2831010#32, 0xe8910006#32,
  0xe1a00121#32, 0xe1800f02#32, 0xe58d0040#32, 0xe1a02122#32, 0xe1822f01#32, 0xe58d2044#32, 0xe5932018#32, 0xe593101c#32,
  0xe1a00e01#32, 0xe1800222#32, 0xe58d004c#32, 0xe1a02e02#32, 0xe1822221#32, 0xe58d2048#32, 0xe5932020#32, 0xe5931024#32,
  0xe1a00d81#32, 0xe18002a2#32, 0xe58d0054#32, 0xe1a02d82#32, 0xe18222a1#32, 0xe58d2050#32, 0xe2831028#32, 0xe8910006#32,
  0xe1a00e21#32, 0xe1800202#32, 0xe58d0058#32, 0xe1a02e22#32, 0xe1822201#32, 0xe58d205c#32, 0xe5932038#32, 0xe593103c#32,
  0xe1a00301#32, 0xe1800d22#32, 0xe58d0064#32, 0xe1a02302#32, 0xe1822d21#32, 0xe58d2060#32, 0xe2831040#32, 0xe8910006#32,
  0xe1a004a1#32, 0xe1800b82#32, 0xe58d0068#32, 0xe1a024a2#32, 0xe1822b81#32, 0xe58d206c#32, 0xe5932048#32, 0xe593104c#32,
  0xe1a00a01#32, 0xe1800622#32, 0xe58d0074#32, 0xe1a02a02#32, 0xe1822621#32, 0xe58d2070#32, 0xe5932050#32, 0xe5931054#32,
  0xe1a00181#32, 0xe1800ea2#32, 0xe583003c#32, 0xe1a02182#32, 0xe1822ea1#32, 0xe5832038#32, 0xe5932058#32, 0xe593105c#32,
  0xe1a00501#32, 0xe1800b22#32, 0xe58d007c#32, 0xe1a02502#32, 0xe1822b21#32, 0xe58d2078#32, 0xe2831060#32, 0xe8910006#32,
  0xe1a00aa1#32, 0xe1800582#32, 0xe5830010#32, 0xe1a02aa2#32, 0xe1822581#32, 0xe5832014#32, 0xe5932068#32, 0xe593106c#32,
  0xe1a00c81#32, 0xe18003a2#32, 0xe5830064#32, 0xe1a02c82#32, 0xe18223a1#32, 0xe5832060#32, 0xe2831070#32, 0xe8910006#32,
  0xe1a00ca1#32, 0xe1800382#32, 0xe58d0080#32, 0xe1a02ca2#32, 0xe1822381#32, 0xe58d2084#32, 0xe2831078#32, 0xe8910006#32,
  0xe1a00ba1#32, 0xe1800482#32, 0xe58d0088#32, 0xe1a02ba2#32, 0xe1822481#32, 0xe58d208c#32, 0xe2831080#32, 0xe8910006#32,
  0xe1a009a1#32, 0xe1800682#32, 0xe5830040#32, 0xe1a029a2#32, 0xe1822681#32, 0xe5832044#32, 0xe5932088#32, 0xe593108c#32,
  0xe1a00781#32, 0xe18008a2#32, 0xe58d0094#32, 0xe1a02782#32, 0xe18228a1#32, 0xe58d2090#32, 0xe5932090#32, 0xe5931094#32,
  0xe1a00a81#32, 0xe18005a2#32, 0xe583001c#32, 0xe1a02a82#32, 0xe18225a1#32, 0xe5832018#32, 0xe5932098#32, 0xe593109c#32,
  0xe1a00401#32, 0xe1800c22#32, 0xe583006c#32, 0xe1a02402#32, 0xe1822c21#32, 0xe5832068#32, 0xe593c0a0#32, 0xe59320a4#32,
  0xe1a07902#32, 0xe187772c#32, 0xe1a0c90c#32, 0xe18cc722#32, 0xe59320a8#32, 0xe59310ac#32, 0xe1a00101#32, 0xe1800f22#32,
  0xe58d0098#32, 0xe1a02102#32, 0xe1822f21#32, 0xe28310b0#32, 0xe8914002#32, 0xe1a091a1#32, 0xe1899e8e#32, 0xe1a0e1ae#32,
  0xe18eee81#32, 0xe59300bc#32, 0xe59310b8#32, 0xe1a06421#32, 0xe1866c00#32, 0xe1a00420#32, 0xe1800c01#32, 0xe28310c0#32,
  0xe8910012#32, 0xe1a05704#32, 0xe1855921#32, 0xe1a01701#32, 0xe1811924#32, 0xe58d109c#32, 0xe5934034#32, 0xe593a030#32,
  0xe1a0aa2a#32, 0xe18aa604#32, 0xe1a04a24#32, 0xe5931030#32, 0xe1844601#32, 0xe583a008#32, 0xe583400c#32, 0xe59d1070#32,
  0xe5831030#32, 0xe59d1074#32, 0xe5831034#32, 0xe5839048#32, 0xe583e04c#32, 0xe59d1080#32, 0xe58310b0#32, 0xe59d1084#32,
  0xe58310b4#32, 0xe583c070#32, 0xe5837074#32, 0xe59d1040#32, 0xe58310a0#32, 0xe59d1044#32, 0xe58310a4#32, 0xe5836098#32,
  0xe583009c#32, 0xe59d1088#32, 0xe58310b8#32, 0xe59d108c#32, 0xe58310bc#32, 0xe59d1050#32, 0xe5831078#32, 0xe59d1054#32,
  0xe583107c#32, 0xe59d109c#32, 0xe5831020#32, 0xe5835024#32, 0xe58320c0#32, 0xe59d2098#32, 0xe58320c4#32, 0xe59d2068#32,
  0xe58320a8#32, 0xe59d206c#32, 0xe58320ac#32, 0xe59d2058#32, 0xe5832080#32, 0xe59d205c#32, 0xe5832084#32, 0xe59d2048#32,
  0xe5832028#32, 0xe59d204c#32, 0xe583202c#32, 0xe59d2090#32, 0xe5832090#32, 0xe59d2094#32, 0xe5832094#32, 0xe59d2078#32,
  0xe5832088#32, 0xe59d207c#32, 0xe583208c#32, 0xe59d2060#32, 0xe5832058#32, 0xe59d2064#32, 0xe583205c#32, 0xe59d2000#32,
  0xe5832050#32, 0xe583b054#32, 0xe3a02000#32, 0xe8980003#32, 0xe2887008#32, 0xe89700c0#32, 0xe2885010#32, 0xe8950030#32,
  0xe1c44006#32, 0xe1c55007#32, 0xe0244000#32, 0xe0255001#32, 0xe8880030#32, 0xe2885010#32, 0xe8950030#32, 0xe288a018#32,
  0xe89a0600#32, 0xe1c94004#32, 0xe1ca5005#32, 0xe0244006#32, 0xe0255007#32, 0xe5884008#32, 0xe588500c#32, 0xe288c020#32,
  0xe89c1800#32, 0xe2885018#32, 0xe8950030#32, 0xe1cb4004#32, 0xe1cc5005#32, 0xe288a010#32, 0xe89a0600#32, 0xe0299004#32,
  0xe02aa005#32, 0xe1a04009#32, 0xe1a0500a#32, 0xe5884010#32, 0xe5885014#32, 0xe1c0400b#32, 0xe1c1500c#32, 0xe288a018#32,
  0xe89a0600#32, 0xe0299004#32, 0xe02aa005#32, 0xe1a04009#32, 0xe1a0500a#32, 0xe5884018#32, 0xe588501c#32, 0xe1c60000#32,
  0xe1c71001#32, 0xe020000b#32, 0xe021100c#32, 0xe5880020#32, 0xe5881024#32, 0xe2822005#32, 0xe2888028#32, 0xe3520019#32,
  0x1affffc9#32, 0xe59d2038#32, 0xe8b20030#32, 0xe58d2038#32, 0xe8930003#32, 0xe0206004#32, 0xe0217005#32, 0xe88300c0#32,
  0xe59d200c#32, 0xe2822001#32, 0xe58d200c#32, 0xe3520018#32, 0x1afffe39#32, 0xe3a03000#32, 0xe59f201c#32, 0xe7d22003#32,
  0xe59d103c#32, 0xe7c12003#32, 0xe2833001#32, 0xe3530020#32, 0x1afffff8#32, 0xe28dd0a4#32, 0xe8bd8ff0#32, 0x00000b50#32,
  0x00000a88#32, 0x00000cd0#32, 0x00000001#32, 0x00000000#32, 0x00008082#32, 0x00000000#32, 0x0000808a#32, 0x80000000#32,
  0x80008000#32, 0x80000000#32, 0x0000808b#32, 0x00000000#32, 0x80000001#32, 0x00000000#32, 0x80008081#32, 0x80000000#32,
  0x00008009#32, 0x80000000#32, 0x0000008a#32, 0x00000000#32, 0x00000088#32, 0x00000000#32, 0x80008009#32, 0x00000000#32,
  0x8000000a#32, 0x00000000#32, 0x8000808b#32, 0x00000000#32, 0x0000008b#32, 0x80000000#32, 0x00008089#32, 0x80000000#32,
  0x00008003#32, 0x80000000#32, 0x00008002#32, 0x80000000#32, 0x00000080#32, 0x80000000#32, 0x0000800a#32, 0x00000000#32,
  0x8000000a#32, 0x80000000#32, 0x80008081#32, 0x80000000#32, 0x00008080#32, 0x80000000#32, 0x80000001#32, 0x00000000#32,
  0x80008008#32, 0x80000000#32]

/-- a23/sha3/p.txt:1-831; lines 723 to 831 are zero. -/
def sha3 : List (BitVec 32) := sha3Code ++ List.replicate 109 0

end TinyGarble.Hdl.A23.Programs
