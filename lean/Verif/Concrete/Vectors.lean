import Verif.Concrete.Instance
import Verif.Model.Io

/-!
# Test vectors (tests, not proofs)

The model runs on the concrete cryptography and reproduces the test vectors of the repository
(protocol/src/lib.rs:1096-1303, which are those of BIP-324), and those of the RFCs.  This tests that the
definitions of the model and of `Verif/Concrete` say what the Rust code computes.  The small ones are checked
by the kernel, the long ones are evaluated.  Not run: vectors 6 and 7, whose contents have 4 and 16 million
bytes.
-/

namespace Bip324.Concrete.Vectors

def digit (c : Char) : Nat := if c.toNat ≥ 97 then c.toNat - 87 else c.toNat - 48

def unhexList : List Char → Bytes
  | a :: b :: r => UInt8.ofNat (digit a * 16 + digit b) :: unhexList r
  | _ => []

/-- Bytes from their hexadecimal notation. -/
def unhex (s : String) : Bytes := unhexList s.toList

/-- `Magic::BITCOIN`. -/
def mainnet : Bytes := [0xf9, 0xbe, 0xb4, 0xd9]

/-- The outbound cipher after `n` empty packets. -/
def skip (ty : PacketType) : Nat → OutboundCipher → OutboundCipher
  | 0, o => o
  | n + 1, o => skip ty n (o.encryptToVec real .debug [] ty none).1

/-- A vector of BIP-324: the session id and the packet sent after `n` empty ones. -/
def run (sk ours theirs : String) (role : Role) (n : Nat) (ty : PacketType) (contents aad : Bytes) :
    Option (Bytes × Bytes) :=
  let keys :=
    match role with
    | .initiator => SessionKeyMaterial.fromEcdh real (unhex ours) (unhex theirs) (unhex sk) .A mainnet
    | .responder => SessionKeyMaterial.fromEcdh real (unhex theirs) (unhex ours) (unhex sk) .B mainnet
  match keys with
  | .ok m =>
    match (skip ty n (CipherSession.new m role).outbound).encryptToVec real .debug contents ty (some aad) with
    | (_, .ok b) => some (m.sessionId, b)
    | _ => none
  | _ => none

/-- FIPS 180-4. -/
example : sha256 (ascii "abc") =
    unhex "ba7816bf8f01cfea414140de5dae2223b00361a396177a9cb410ff61f20015ad" := by
  decide +kernel

/-- RFC 8439, A.1. -/
example : chachaBlock (zeros 32) (zeros 12) 0 = unhex ("76b8e0ada0f13d90405d6ae55386bd28bdd219b8a08ded1aa836" ++
    "efcc8b770dc7da41597c5157488d7724e03fb8d84a376a43b8f41518a11cc387b669b2ee6586") := by
  decide +kernel

/-- RFC 8439, 2.5.2. -/
example : poly1305 (unhex "85d6be7857556d337f4452fe42d506a80103808afb0db2fd4abff6af4149f51b")
    (ascii "Cryptographic Forum Research Group") = unhex "a8061dc1305136c6c22b8baf0c0127a9" := by
  decide +kernel

/-! protocol/src/lib.rs:1098-1150 `test_vector_1`. (The first packet has random contents there; the second does not depend on them.) -/
#guard ((run "61062ea5071d800bbfd59e2e8b53d47d194b095ae5a4df04936b49772ef0d4d7"
    ("ec0adff257bbfe500c188c80b4fdd640f6b45a482bbc15fc7cef5931deff0aa186f6eb9bba7b85dc4dcc28b287" ++
    "22de1e3d9108b985e2967045668f66098e475b")
    ("a4a94dfce69b4a2a0a099313d10f9f7e7d649d60501c9e1d274c300e0d89aafaffffffffffffffffffffffffff" ++
    "ffffffffffffffffffffffffffffff8faf88d5")
    .initiator 1 .genuine (unhex "8e")
    (unhex "")).map fun x => x.2 == unhex "7530d2a18720162ac09c25329a60d75adf36eda3c3") == some true

/-! protocol/src/lib.rs:1152-1196 `test_vector_2`. -/
#guard ((run "6f312890ec83bbb26798abaadd574684a53e74ccef7953b790fcc29409080246"
    ("a8785af31c029efc82fa9fc677d7118031358d7c6a25b5779a9b900e5ccd94aac97eb36a3c5dbcdb2ca5843cc4" ++
    "c2fe0aaa46d10eb3d233a81c3dde476da00eef")
    ("fffffffffffffffffffffffffffffffffffffffffffffffffffffffefffffc2f00000000000000000000000000" ++
    "00000000000000000000000000000000000000")
    .responder 999 .genuine (unhex "3eb1d4e98035cfd8eeb29bac969ed3824a")
    (unhex "")).map fun x => x.1 == unhex "b0490e26111cb2d55bbff2ace00f7f644f64006539abb4e7513f05107bb10608" && x.2 == unhex "d78adbcba0eebfb15cfbd8142c84dc729d233d0dc11b1d851e46a114122b8d5b96b7d59317") == some true

/-! protocol/src/lib.rs:1198-1224 `test_vector_3`. -/
#guard ((run "846a784f1a03dea59cc679754a60a7145542fa130e3efbd815c81e909ce32933"
    ("480eacf1536b52257bf8ce78d8f4ce09395d744767c6c129e7838947ee625af3245592c111275e877d5baae225" ++
    "84cb5f1153e67c16bcd7da767726cd0d0c846a")
    ("ffffffffffffffffffffffffffffffffffffffffffffffffffffffff22d5e441524d571a52b3def126189d3f41" ++
    "6890a99d4da6ede2b0cde1760ce2c3f98457ae")
    .initiator 0 .genuine (unhex ("054290a6c6ba8d80478172e89d32bf690913ae9835de6dcf206ff1f4d652286fe0ddf74deba41d55de3edc77c4" ++
    "2a32af79bbea2c00bae7492264c60866ae5a"))
    (unhex ("84932a55aac22b51e7b128d31d9f0550da28e6a3f394224707d878603386b2f9d0c6bcd8046679bfed7b68c517" ++
    "e7431e75d9dd34605727d2ef1c2babbf680ecc8d68d2c4886e9953a4034abde6da4189cd47c6bb3192242cf714" ++
    "d502ca6103ee84e08bc2ca4fd370d5ad4e7d06c7fbf496c6c7cc7eb19c40c61fb33df2a9ba48497a96c98d7b10" ++
    "c1f91098a6b7b16b4bab9687f27585ade1491ae0dba6a79e1e2d85dd9d9d45c5135ca5fca3f0f99a60ea39edbc" ++
    "9efc7923111c937913f225d67788d5f7e8852b697e26b92ec7bfcaa334a1665511c2b4c0a42d06f7ab98a97195" ++
    "16c8fd17f73804555ee84ab3b7d1762f6096b778d3cb9c799cbd49a9e4a325197b4e6cc4a5c4651f8b41ff88a9" ++
    "2ec428354531f970263b467c77ed11312e2617d0d53fe9a8707f51f9f57a77bfb49afe3d89d85ec05ee17b9186" ++
    "f360c94ab8bb2926b65ca99dae1d6ee1af96cad09de70b6767e949023e4b380e66669914a741ed0fa420a48dbc" ++
    "7bfae5ef2019af36d1022283dd90655f25eec7151d471265d22a6d3f91dc700ba749bb67c0fe4bc0888593fbaf" ++
    "59d3c6fff1bf756a125910a63b9682b597c20f560ecb99c11a92c8c8c3f7fbfaa103146083a0ccaecf7a5f5e73" ++
    "5a784a8820155914a289d57d8141870ffcaf588882332e0bcd8779efa931aa108dab6c3cce76691e345df4a91a" ++
    "03b71074d66333fd3591bff071ea099360f787bbe43b7b3dff2a59c41c7642eb79870222ad1c6f2e5a191ed5ac" ++
    "ea51134679587c9cf71c7d8ee290be6bf465c4ee47897a125708704ad610d8d00252d01959209d7cd04d5ecbbb" ++
    "1419a7e84037a55fefa13dee464b48a35c96bcb9a53e7ed461c3a1607ee00c3c302fd47cd73fda7493e947c983" ++
    "4a92d63dcfbd65aa7c38c3e3a2748bb5d9a58e7495d243d6b741078c8f7ee9c8813e473a323375702702b0afae" ++
    "1550c8341eedf5247627343a95240cb02e3e17d5dca16f8d8d3b2228e19c06399f8ec5c5e9dbe4caef6a0ea3ff" ++
    "b1d3c7eac03ae030e791fa12e537c80d56b55b764cadf27a8701052df1282ba8b5e3eb62b5dc7973ac40160e00" ++
    "722fa958d95102fc25c549d8c0e84bed95b7acb61ba65700c4de4feebf78d13b9682c52e937d23026fb4c6193e" ++
    "6644e2d3c99f91f4f39a8b9fc6d013f89c3793ef703987954dc0412b550652c01d922f525704d32d70d6d4079b" ++
    "c3551b563fb29577b3aecdc9505011701dddfd94830431e7a4918927ee44fb3831ce8c4513839e2deea1287f3f" ++
    "a1ab9b61a256c09637dbc7b4f0f8fbb783840f9c24526da883b0df0c473cf231656bd7bc1aaba7f321fec0971c" ++
    "8c2c3444bff2f55e1df7fea66ec3e440a612db9aa87bb505163a59e06b96d46f50d8120b92814ac5ab146bc78d" ++
    "bbf91065af26107815678ce6e33812e6bf3285d4ef3b7b04b076f21e7820dcbfdb4ad5218cf4ff6a65812d8fcb" ++
    "98ecc1e95e2fa58e3efe4ce26cd0bd400d6036ab2ad4f6c713082b5e3f1e04eb9e3b6c8f63f57953894b9e220e" ++
    "0130308e1fd91f72d398c1e7962ca2c31be83f31d6157633581a0a6910496de8d55d3d07090b6aa087159e388b" ++
    "7e7dec60f5d8a60d93ca2ae91296bd484d916bfaaa17c8f45ea4b1a91b37c82821199a2b7596672c37156d8701" ++
    "e7352aa48671d3b1bbbd2bd5f0a2268894a25b0cb2514af39c8743f8cce8ab4b523053739fd8a522222a09acf5" ++
    "1ac704489cf17e4b7125455cb8f125b4d31af1eba1f8cf7f81a5a100a141a7ee72e8083e065616649c241f2336" ++
    "45c5fc865d17f0285f5c52d9f45312c979bfb3ce5f2a1b951deddf280ffb3f370410cffd1583bfa90077835aa2" ++
    "01a0712d1dcd1293ee177738b14e6b5e2a496d05220c3253bb6578d6aff774be91946a614dd7e879fb3dcf7451" ++
    "e0b9adb6a8c44f53c2c464bcc0019e9fad89cac7791a0a3f2974f759a9856351d4d2d7c5612c17cfc50f847994" ++
    "5df57716767b120a590f4bf656f4645029a525694d8a238446c5f5c2c1c995c09c1405b8b1eb9e0352ffdf766c" ++
    "c964f8dcf9f8f043dfab6d102cf4b298021abd78f1d9025fa1f8e1d710b38d9d1652f2d88d1305874ec41609b6" ++
    "617b65c5adb19b6295dc5c5da5fdf69f28144ea12f17c3c6fcce6b9b5157b3dfc969d6725fa5b098a4d9b1d315" ++
    "47ed4c9187452d281d0a5d456008caf1aa251fac8f950ca561982dc2dc908d3691ee3b6ad3ae3d22d002577264" ++
    "ca8e49c523bd51c4846be0d198ad9407bf6f7b82c79893eb2c05fe9981f687a97a4f01fe45ff8c8b7ecc551135" ++
    "cd960a0d6001ad35020be07ffb53cb9e731522ca8ae9364628914b9b8e8cc2f37f03393263603cc2b45295767e" ++
    "b0aac29b0930390eb89587ab2779d2e3decb8042acece725ba42eda650863f418f8d0d50d104e44fbbe5aa7389" ++
    "a4a144a8cecf00f45fb14c39112f9bfb56c0acbd44fa3ff261f5ce4acaa5134c2c1d0cca447040820c81ab1bcd" ++
    "c16aa075b7c68b10d06bbb7ce08b5b805e0238f24402cf24a4b4e00701935a0c68add3de090903f9b85b153cb1" ++
    "79a582f57113bfc21c2093803f0cfa4d9d4672c2b05a24f7e4c34a8e9101b70303a7378b9c50b6cddd46814ef7" ++
    "fd73ef6923feceab8fc5aa8b0d185f2e83c7a99dcb1077c0ab5c1f5d5f01ba2f0420443f75c4417db9ebf1665e" ++
    "fbb33dca224989920a64b44dc26f682cc77b4632c8454d49135e52503da855bc0f6ff8edc1145451a9772c0689" ++
    "1f41064036b66c3119a0fc6e80dffeb65dc456108b7ca0296f4175fff3ed2b0f842cd46bd7e86f4c62dfaf1ddb" ++
    "f836263c00b34803de164983d0811cebfac86e7720c726d3048934c36c23189b02386a722ca9f0fe00233ab50d" ++
    "b928d3bccea355cc681144b8b7edcaae4884d5a8f04425c0890ae2c74326e138066d8c05f4c82b29df99b034ea" ++
    "727afde590a1f2177ace3af99cfb1729d6539ce7f7f7314b046aab74497e63dd399e1f7d5f16517c23bd830d1f" ++
    "dee810f3c3b77573dd69c4b97d80d71fb5a632e00acdfa4f8e829faf3580d6a72c40b28a82172f8dcd4627663e" ++
    "bf6069736f21735fd84a226f427cd06bb055f94e7c92f31c48075a2955d82a5b9d2d0198ce0d4e131a112570a8" ++
    "ee40fb80462a81436a58e7db4e34b6e2c422e82f934ecda9949893da5730fc5c23c7c920f363f85ab28cc6a420" ++
    "6713c3152669b47efa8238fa826735f17b4e78750276162024ec85458cd5808e06f40dd9fd43775a456a3ff6ca" ++
    "e90550d76d8b2899e0762ad9a371482b3e38083b1274708301d6346c22fea9bb4b73db490ff3ab05b2f7f9e187" ++
    "adef139a7794454b7300b8cc64d3ad76c0e4bc54e08833a4419251550655380d675bc91855aeb82585220bb97f" ++
    "03e976579c08f321b5f8f70988d3061f41465517d53ac571dbf1b24b94443d2e9a8e8a79b392b3d6a4ecdd7f62" ++
    "6925c365ef6221305105ce9b5f5b6ecc5bed3d702bd4b7f5008aa8eb8c7aa3ade8ecf6251516fbefeea4e1082a" ++
    "a0e1848eddb31ffe44b04792d296054402826e4bd054e671f223e5557e4c94f89ca01c25c44f1a2ff2c05a70b4" ++
    "3408250705e1b858bf0670679fdcd379203e36be3500dd981b1a6422c3cf15224f7fefdef0a5f225c5a09d1576" ++
    "7598ecd9e262460bb33a4b5d09a64591efabc57c923d3be406979032ae0bc0997b65336a06dd75b253332ad6a8" ++
    "b63ef043f780a1b3fb6d0b6cad98b1ef4a02535eb39e14a866cfc5fc3a9c5deb2261300d71280ebe66a0776a15" ++
    "1469551c3c5fa308757f956655278ec6330ae9e3625468c5f87e02cd9a6489910d4143c1f4ee13aa21a6859d90" ++
    "7b788e28572fecee273d44e4a900fa0aa668dd861a60fb6b6b12c2c5ef3c8df1bd7ef5d4b0d1cdb8c15fffbb36" ++
    "5b9784bd94abd001c6966216b9b67554ad7cb7f958b70092514f7800fc40244003e0fd1133a9b850fb17f4fcaf" ++
    "de07fc87b07fb510670654a5d2d6fc9876ac74728ea41593beef003d6858786a52d3a40af7529596767c17000b" ++
    "faf8dc52e871359f4ad8bf6e7b2853e5229bdf39657e213580294a5317c5df172865e1e17fe37093b585e04613" ++
    "f5f078f761b2b1752eb32983afda24b523af8851df9a02b37e77f543f18888a782a994a50563334282bf9cdfcc" ++
    "c183fdf4fcd75ad86ee0d94f91ee2300a5befbccd14e03a77fc031a8cfe4f01e4c5290f5ac1da0d58ea054bd48" ++
    "37cfd93e5e34fc0eb16e48044ba76131f228d16cde9b0bb978ca7cdcd10653c358bdb26fdb723a530232c32ae0" ++
    "a4cecc06082f46e1c1d596bfe60621ad1e354e01e07b040cc7347c016653f44d926d13ca74e6cbc9d4ab4c99f4" ++
    "491c95c76fff5076b3936eb9d0a286b97c035ca88a3c6309f5febfd4cdaac869e4f58ed409b1e9eb4192fb2f9c" ++
    "2f12176d460fd98286c9d6df84598f260119fd29c63f800c07d8df83d5cc95f8c2fea2812e7890e8a0718bb1e0" ++
    "31ecbebc0436dcf3e3b9a58bcc06b4c17f711f80fe1dffc3326a6eb6e00283055c6dabe20d311bfd5019591b79" ++
    "54f8163c9afad9ef8390a38f3582e0a79cdf0353de8eeb6b5f9f27b16ffdef7dd62869b4840ee226ccdce95e02" ++
    "c4545eb981b60571cd83f03dc5eaf8c97a0829a4318a9b3dc06c0e003db700b2260ff1fa8fee66890e637b109a" ++
    "bb03ec901b05ca599775f48af50154c0e67d82bf0f558d7d3e0778dc38bea1eb5f74dc8d7f90abdf5511a424be" ++
    "66bf8b6a3cacb477d2e7ef4db68d2eba4d5289122d851f9501ba7e9c4957d8eba3be3fc8e785c4265a1d65c46f" ++
    "2809b70846c693864b169c9dcb78be26ea14b8613f145b01887222979a9e67aee5f800caa6f5c4229bdeefc901" ++
    "232ace6143c9865e4d9c07f51aa200afaf7e48a7d1d8faf366023beab12906ffcb3eaf72c0eb68075e4daf3c08" ++
    "0e0c31911befc16f0cc4a09908bb7c1e26abab38bd7b788e1a09c0edf1a35a38d2ff1d3ed47fcdaae2f0934224" ++
    "694f5b56705b9409b6d3d64f3833b686f7576ec64bbdd6ff174e56c2d1edac0011f904681a73face26573fbba4" ++
    "e34652f7ae84acfb2fa5a5b3046f98178cd0831df7477de70e06a4c00e305f31aafc026ef064dd68fd3e4252b1" ++
    "b91d617b26c6d09b6891a00df68f105b5962e7f9d82da101dd595d286da721443b72b2aba2377f6e7772e33b3a" ++
    "5e3753da9c2578c5d1daab80187f55518c72a64ee150a7cb5649823c08c9f62cd7d020b45ec2cba8310db1a778" ++
    "5a46ab24785b4d54ff1660b5ca78e05a9a55edba9c60bf044737bc468101c4e8bd1480d749be5024adefca1d99" ++
    "8abe33eaeb6b11fbb39da5d905fdd3f611b2e51517ccee4b8af72c2d948573505590d61a6783ab7278fc43fe55" ++
    "b1fcc0e7216444d3c8039bb8145ef1ce01c50e95a3f3feab0aee883fdb94cc13ee4d21c542aa795e1893222898" ++
    "1690f4d4c57ca4db6eb5c092e29d8a05139d509a8aeb48baa1eb97a76e597a32b280b5e9d6c36859064c98ff96" ++
    "ef5126130264fa8d2f49213870d9fb036cff95da51f270311d9976208554e48ffd486470d0ecdb4e619ccbd822" ++
    "6147204baf8e235f54d8b1cba8fa34a9a4d055de515cdf180d2bb6739a175183c472e30b5c914d09eeb1b7dafd" ++
    "6872b38b48c6afc146101200e6e6a44fe5684e220adc11f5c403ddb15df8051e6bdef09117a3a5349938513776" ++
    "286473a3cf1d2788bb875052a2e6459fa7926da33380149c7f98d7700528a60c954e6f5ecb65842fde69d614be" ++
    "69eaa2040a4819ae6e756accf936e14c1e894489744a79c1f2c1eb295d13e2d767c09964b61f9cfe497649f712"))).map fun x => x.2 == unhex ("6aa28bc4b6719eca144ac33a3f17859317d5450e4978db9365ce61e7085a617dd386ec18eb436c9056aa1d2d47" ++
    "36c9bffd25803d967fcae916ce1647ccae3d5258b17dfa1cdc7eb99581c48ff2898ef92d3aa1")) == some true

/-! protocol/src/lib.rs:1226-1266 `test_vector_4`. -/
#guard ((run "c0f15820459f64d98e5c48681d13340572c574533dd9f7161b85fcc8224fdf30"
    ("682871104d694baca8b9c7990ae6288f49e1ff4feb21dd5cffad67db7752fdfb6c3608d6996c54be04b35feef0" ++
    "37da09ee4d9dca2363b343bc2d4f6d0ea609da")
    ("56bd0c06f10352c3a1a9f4b4c92f6fa2b26df124b57878353c1fc691c51abea77c8817daeeb9fa546b77c8daf7" ++
    "9d89b22b0e1b87574ece42371f00237aa9d83a")
    .responder 223 .decoy (unhex ("7e0e78eb6990b059e6cf0ded66ea93ef82e72aa2f18ac24f2fc6ebab561ae557420729da103f64cecfa20527e1" ++
    "5f9fb669a49bbbf274ef0389b3e43c8c44e5f60bf2ac38e2b55e7ec4273dba15ba41d21f8f5b3ee1688b3c2995" ++
    "1218caf847a97fb50d75a86515d445699497d968164bf740012679b8962de573be941c62b7ef"))
    (unhex "")).map fun x => x.1 == unhex "279a96e6ce08e5074608fcad77d6a78f90c8b618a4520575435b1a37b1c56df9" && x.2.drop (x.2.length - 128) ==
    unhex ("5afbd61f6e989833df2f12ff70c98f1a20ebe84acba2a05429cc6a57238dba87cdc432474f378889b2d0e95ade" ++
    "9f892eb1a1f6b03b73f903682476537f653f738f7a9f1cc9856ed75f3d69122bdeb00af48e66a64872f639a67f" ++
    "c109ee5ca124d0ee183da3c2b8f2da828850b50976b491f1add78d7f01e07565570621266852")) == some true

/-! protocol/src/lib.rs:1268-1302 `test_vector_5`. -/
#guard ((run "96cb391886681d1d3e23948e51987771a8ec3001b640c18fb994a855cea66b6e"
    ("ffffffffffffffffffffffffffffffffffffffffffffffffffffffffdde3a077a6fd73711a27250c439ba78ef6" ++
    "3d89cd0918c0a0a75f301ed96aa2a43ecf3f61")
    ("ffffffffffffffffffffffffffffffffffffffffffffffffffffffffa7730be300000000000000000000000000" ++
    "00000000000000000000000000000000000000")
    .initiator 448 .genuine (unhex ("00cf68f8f7ac49ffaa02c4864fdf6dfe7bbf2c740b88d98c50ebafe32c92f3427f57601ffcb21a3435979287db" ++
    "8fee6c302926741f9d5e464c647eeb9b7acaeda46e00abd7506fc9a719847e9a7328215801e96198dac141a15c" ++
    "7c2f68e0690dd1176292a0dded04d1f548aad88f1aebdc0a8f87da4bb22df32dd7c160c225b843e83f6525d6d4" ++
    "84f502f16d923124fc538794e21da2eb689d18d87406ecced5b9f92137239ed1d37bcfa7836641a83cf5e0a1cf" ++
    "63f51b06f158e499a459ede41c"))
    (unhex "")).map fun x => x.2.drop (x.2.length - 128) ==
    unhex ("33953941be2682da1c6d1b167cbf180d7cb8159c94c6ea1c52356716f1057af4df53321f18894c285f7b2fd85b" ++
    "2edc44a13c9295f310962fdfc8d944bd77c5500b10ca68ca5d0977d19d183a7def742c41cfeee763dc09ef985c" ++
    "96ab6e74e464f66992f752c9368e42082ad338705062ddfcad4ca1c9c54004b9345d8df25953")) == some true

/-! The curve: the group order, and the encoding of a public key. -/
#guard (jmul 256 n256 gen).z == 0
#guard [1, 2, 3, 1000, n256 - 1].all fun k =>
  ellswiftDecode (ellswiftOf (beBytes 32 k)) == jx (jmul 256 k gen)

/-! The law `ecdh_agree` in one case. -/
#guard real.ecdh (real.ellswift (beBytes 32 12345)) (real.ellswift (beBytes 32 6789)) (beBytes 32 12345) .A [] ==
  real.ecdh (real.ellswift (beBytes 32 12345)) (real.ellswift (beBytes 32 6789)) (beBytes 32 6789) .B []

/-- Bytes a peer sends after its key: garbage terminator, decoys and version packet (for a peer that knows
the other's key). -/
def peerStream (role : Role) (skOurs skTheirs : Bytes) (garbage : Bytes) (decoys : List Bytes) : Option Bytes :=
  let own := real.ellswift skOurs
  let h : HsSentKey := ⟨mainnet, role, skOurs, own, some garbage⟩
  match h.receiveKey real (real.ellswift skTheirs) with
  | .ok h =>
    match h.sendVersion real .debug (zeros (HsReceivedKey.sendVersionLen (some decoys))) (some decoys) with
    | (b, .ok _) => some (own ++ garbage ++ b)
    | _ => none
  | _ => none

/-! The I/O handshake on the real cryptography: an initiator against what a responder sends, cut in pieces. -/
#guard
  let skI := beBytes 32 0x1234567
  let skR := beBytes 32 0x7654321
  match peerStream .responder skR skI [1, 2, 3] [[4], [5, 6]] with
  | none => false
  | some b =>
    match handshake syncApi real .debug mainnet .initiator skI (some [9]) none
        [.data (b.take 70), .data ((b.drop 70).take 11), .data (b.drop 81 ++ [42])] ⟨[], [], []⟩ with
    | (w, _, .ok (_, _, s)) => s.leftover ++ (s.inner.flatMap fun | .data d => d | _ => []) == [42] &&
        peerStream .initiator skI skR [9] [] == some w.out
    | _ => false

end Bip324.Concrete.Vectors
