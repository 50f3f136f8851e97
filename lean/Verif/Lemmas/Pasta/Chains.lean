/-
Generated data: for the Pallas generator (-1, 2) over `Fp` and the Vesta generator (-1, 2) over `Fq`, the
inverses used along the chains that compute (order - 1) and (eigenvalue of the endomorphism) times it.
-/
import Mathlib.Data.Nat.Notation

namespace Ragu.Pasta

def pallasOrderChain : List (Bool × ℕ) := [
  (false, 0x3000000000000000000000000000000019b4f2bd06f9bad4b2e1e4b1c0000001),
  (false, 0x129f4036cbc5c77ddc0a463515679941f72318d25330151c942b1da5b582ff25),
  (false, 0x3f9d423f7edef22ae60ab63889b50a1e5dc83ecd1bc2398ae16a1e8b50b075ad),
  (false, 0xb95a0cbe9b426694819ac3489a85f8b130c4a2b9b64e55b4d53c951df23fcb2),
  (false, 0x1fb4cbbc4cd070338a74c756410887a96e2887dccae68591af551a77f4830db),
  (false, 0x1af786d00623eaeba24f009b14e4c70b873df936b2361fa83585029ef3ea6e0c),
  (false, 0x24625fa9c22e435d514d85ebdde130dd6f83f1609fd4547af09eb473f82906d9),
  (false, 0x33d871eee5e7fb9e68bcce4c1da8b4cb7ba2bccb622aa2db270966dac3eb48bb),
  (false, 0x26390e0a0f03aa98e3f16ef4e604af3686b79ab4305990ee47a13f9084e8271c),
  (false, 0x2175e5e9e3c399c0c57d4730bb5614e97fa5cef4fcd41ffbded18a69a01fddcf),
  (false, 0x25aae05776d8b2aef2c2ecd7294e14c8a4762dcff225577ae4e15ccff2aaa75b),
  (false, 0x1306548d54b336effd4c6de891719e0afe1728d65687cd301892cfe1e7987b20),
  (false, 0x359a05d20ca3b524bf4843d299de3e94b477cdb41816bd584aa8bd9ff628b57f),
  (false, 0x33aac02e6bb0051e1bafd35e67c2a043ea99d0c07031d67ef5352f19852ac8c9),
  (false, 0x284866a5e3507d89ed6d5e4383150a2f4a5789b2d1df05464816d2f1d9b6ea3e),
  (false, 0xd1a791c602577dff3d39f23d397eeae6c7d46fafaab579bd69dd169e8b35555),
  (false, 0x2cae5ec5b91d6ac808056ca550b05dd99f034af87ed4109d8216e190a0c5e862),
  (false, 0x1010e91cb2d6761045468c00ea0182fc0fb60f429797d8e7d04daaad4e101106),
  (false, 0x3c6a0aa4ed3e34bb0ee81e11caba07bd815f993c9139d418f2f2c3a237e87e31),
  (false, 0x1b77d5941139d932fab4b9e09814d66224bc8960c54839c4e3d2b8c76a3d9922),
  (false, 0xa4e3b4e1d80570407f7dbe6a306bb37d68285553cddb1a2d6797a717afc21ea),
  (false, 0x1121dc5054a01251ab97aebe38b7add1b2085fc35888e518bab15976b5fe7b45),
  (false, 0xd4a09ae4a5a81a89a66b953f6a511ddcd68106e1fe3476fd076b9d7ad6b60e4),
  (false, 0x1404b058ffd1d53a757fe41563cbcc7bec777d682e96ca0b9948f2f990022d4c),
  (false, 0x27a275db86f41705b8c2402b2526d90bdb0f1fa57de1f6638d4e320d5d8fbeed),
  (false, 0x397440a1eec430360d1972437d4cab184a9dc26fbdd836af4406225596dd4671),
  (false, 0x1ce0355ecd4d85a965fa1c001d04b058f9e6b10547d1a642d7fe8d6bffba97c6),
  (false, 0x1b3b515cfbf7223a9cdcb32cba7a07b35d1a68afb64557200b1208a81da43372),
  (false, 0xfcab493ea8d06fabb3dcf4119905247497fe53fdc8409a61fd495358789891),
  (false, 0x2b042411cb9559edd4b17f87cf97e57d843349ba042b9bd22920a72e4a1c8576),
  (false, 0x1c44728f4e1a688ef86f81407093ac966a5010b12c75e329ad835fd17be4a383),
  (false, 0x3bad3a09a1e0a96cf67bb9d063b50373d41572f7f32c98f62a3dd9c755ed4f37),
  (false, 0x24d8297e2338f8908214944cf6eb363f51989ece0a8d17b13865cdd7226fb13f),
  (false, 0x2ce2c4cd73ac807b29f8d1644f78f3f65bbd21598246a2870da23d868c753201),
  (false, 0x1af74e10699ceaf74e0bce3766ece97157334d1f4e643ad973c6acaf1b4bda98),
  (false, 0x7be0068d5e6ac3c81e857973f3167e626e19ebb27039107b31e3b2b649d254f),
  (false, 0x17fd594908e6caec955787720bc7e73c2862d028c520ccadfafc6d755b72dc4d),
  (false, 0x84440eb360cc23c1cb06d5c4b7df0a8bb34816591ad82e35b48b284b4601921),
  (false, 0x1ae961ac813b982cd48db6b00458de7ad8a795ab8602821c137511be91d3de6),
  (false, 0x2cd6b07cc69ad5732d18e1a8a5c87677babb4392ba0b3ec5ee66f08a4cbc0326),
  (false, 0x1b3f0023e5da7531e2e8066399a2085d000af2413ab42b72c2c4fcd9723a1749),
  (false, 0x1ec671c01a7b08eb7c8fa2b698c3bffc3c5606f4b425ada46bb7b684f0cc53e2),
  (false, 0x3c6447f6640afe2587c11c9398225e4daf130a70f45fc2de14ee86e9b16ae232),
  (false, 0x30419d50133f7c1134facd88eead96fa65454b1ea95d865fbaac4f739f37a0ba),
  (false, 0x39e4e5148a47cd4a340e0acc7bae3e8013ef5902dc4319eae0fdfb45612b528f),
  (false, 0x28530837f0b1556ca17469ad40e69e421b3f86bb07e5a6d50baed6ad42c7ce1b),
  (false, 0x36ce546df8e5bc0f641bde10e26e1201d9d3eb9e6464a26e366c02ef210e297c),
  (false, 0xccb785b58ee85a2ea3e7e39c0e256a0f0042fda07f2e74e5b63788710ee7367),
  (false, 0xf9cc9771f7af3db207359d8dc5a14ce6b1ba37d9354f2d99006a08c9ced7021),
  (false, 0x44a77e396a7ecf4239f1e6fd9a700334c887590ef400d3671b4e46e7f62383a),
  (false, 0x12c8aa4c9d3a9b795c2029c1dd120bed2323105517d7367ffa1829b19738d224),
  (false, 0x138117b0f4fc61172fd4b9d0d1bfd129c917eb09b04e4bc36864aa9f70aadc0e),
  (false, 0x85dd79cf40e4006e21786e75d2d59162a11c2a8a144884f90feb4fa7ecd6963),
  (false, 0x2536329adc25cac5ee2f12f689894a7b328b3288730dc4ae8648f0213ad11745),
  (false, 0x1a8966e5e6cebf3c8f3f142ef2aa246a9ae7b0d2af398538ceb90ec31753b755),
  (false, 0x7bc1f70f5d4b46a2ccefb34a8a75f25a50282ba3c300aa52861c1a67be659a9),
  (false, 0x2ec2707367ce9ebdf9da044435b84933da7653d39e76a4f85415385d5be18ce0),
  (false, 0x277d65b78376fe38d2defbc547cd38f54c6b59d65c92618dca16067a6fdc5f90),
  (false, 0x36f47d94e0d7ad86e9988a725d6d9b4f306773e2427d114bac584bc4777f6c11),
  (false, 0x2752ce1ae052c7ead751046a929757c830427fa01fdc0dd6dea02f5697712d78),
  (false, 0x374351e3e13c8533fe41c85bd8812fc073dd8f4fc4887f60253f384fe3ea6453),
  (false, 0x3af7134fe0fdd43c86c57a6e5fe740f60c0b02fca4b29fbd7e412cefa1a8e9d8),
  (false, 0x236112fb5b0a30ca83bc40c05730bb3b34c007dbe8dad3ced15edd2d5c7b0f2b),
  (false, 0x5157bdb248374cf9cc2eb471be711d79079762eea547f8306759be01acff6ac),
  (false, 0x2235843053613a7aaaf376b6435e1cd27f2f7ca09595c30a9d7dd7c7e6219e87),
  (false, 0xe1c897fd3968131efd588af89c8a528ce7fd6cef39e4e10e90dea2116de3246),
  (false, 0x29dbd61e379cbd1bf8095e73dd6f5b7829a431ffcb1cf4862fbe181f8ed8b00b),
  (false, 0x3c190cee0928729ba28e7da5dcf7879d4c0ef01249d57eeee00d63a8395ad0c),
  (false, 0x9f896ee9e224b850d21dca66ba49446a45f9ccd0116c780c6de3801244e90ec),
  (false, 0x2b44b82ff81e59b79b402dc6c4aab33859577a611386660b40e5c1da0527629),
  (false, 0x1966987baea942116cab328de13fb5ce02f863c19b396f1d52c46548acc2c78a),
  (false, 0x1bd59f654adabcd4358748cf20df45ff0a12df455f9c9db36a68758e7dda7adc),
  (false, 0x5afa65a6385c7354364559071c3cc66f2d14b107c6440f4849bc72307432ff6),
  (false, 0x3ab7e3de089ae690148b27b67be7f6420b1f8672d351c14bd070c9b16fdbc073),
  (false, 0x336e176551318b16a966d1df447ceec726743ed4aee913579c9020a843fdc518),
  (false, 0x28fde51fc9d048551806771508d86918ce2d9f0fd9854f9de32c72c203d9a6b1),
  (false, 0x19a1824c87a128c6025c0ae9dfb178499a57313768045df7f63919f8ec3fefbd),
  (false, 0x2f83f2e51466f16c2a42f33eafcb1dbf2bce04dbaa210528cf2326ce089d39a7),
  (false, 0xdb07b997aca939200f06e6f2ff90def39d79e347b4d95d209b1b3937cdf1fa3),
  (false, 0x1ba3803db71fe3dd1f60f92fdbad705774ce638301f80e48c5818c90fae2dfad),
  (false, 0x2d7aefde0f842fdcf5d4874ab0492d0dae86084090d5b9ecf1aef8f5c37ddeea),
  (false, 0x1aaff3053c55815e3369a15ef976e19e2bb1df51c5058eb754c8b3c18c4370df),
  (false, 0x121fb7ec5d6a0f486b301ed4680742cb21517f04f13e450fbaa69a91a0609b82),
  (false, 0x393cc9b64225da8ac638eaef2585c4d34f02097f3416c641629ccaf8be3e2f9d),
  (false, 0x16e896642b9a56b5a0c24a415aa9f6d6add3d01540bb0ad7033b666427df30b),
  (false, 0xe93fa5dcded11df12376b0ea1b5993df48ba5d04e3183d2552fc060db46b3a3),
  (false, 0x111d9daf5a7fc928e0d4c622e1ce65f0618bfae64c2b57fe73edf45ef2bc047a),
  (false, 0x3bb6c4e6515efc0e61fa48c4f50d01a2c29168ad80f9bd521d4292490d567c59),
  (false, 0x189d5d3c52eb51c7a4926988e100c5082aba12bfe889c84cab95f24be43b5a61),
  (false, 0x3280b2d9cabc88b3ff04490939538bff68beed867ff67418cf040008ec6e7e40),
  (false, 0x38ce58181b46ef6530596d2f751acdd7e4e13a20742e3ff2ec9042b223bf8a05),
  (false, 0x3e544ce80390f96300eb35ba44bae506bca9c588c1866f98df8f36ffa5918abc),
  (false, 0x33f6302c04e4a627f38ec426d72592fe5a4da33a3f063675ab3519a392aecd69),
  (false, 0x312d00cc3ab98d73e7600d2a4eba09fbd0da431840450398ef4bc9974adc82c4),
  (false, 0xbb9597f05f6dcdeb57a7830bcd4cc7d42ae4f8d601bab35e1f7dbaca1b3d856),
  (false, 0x1589e6ded9173a97814d9f36f2f582e4a76737c0cf71ac65405e046b73c1a3af),
  (false, 0x646315b349d88766d889de271ec553acda799a878bf411e433487496a94ce33),
  (false, 0x1a6e409e507f54f59ed9ccb4f91351626d4fa6dd16ec4526b761688164c52cb1),
  (false, 0x2fd6909acc4ac51a61a0172f3455e7658a7f0d3e9f2f215c84c2679bd45ea774),
  (false, 0x384be55dcb7c7cea03d482bccb67eca515fc6c527fd60b4844d389aee770797f),
  (false, 0x60984074bb9208deefab0d6428bebed8012e6809dedabce0fa5e3e6e88300dc),
  (false, 0x1d8b9426842ce22249a7f55cc72fe5ed5d98bc70c8b3e6674bcd7fe149b47f59),
  (false, 0x14c90b14c56633d92d2435858477c94f1cc1acae47a13a9b45792830ec62857d),
  (false, 0x30b3f9f15a176e931586b5e68580340fd2ef6c46eb0a62acfbcb327e0efe5641),
  (false, 0x300f1534af306a70fe50ee22fcad0ca21298d1bee52ed30e76ac5e26cf7b6194),
  (false, 0x30dade9d40a7b4708e15b0e7baaf54599fcf9a6732229bdb07cc788e2d822450),
  (false, 0x3a9b04413f654396acc9a3124a71ee5b3a54fb39b168739625d80af2ee9191a2),
  (false, 0x3a006c8c0e24ef09cf75d6ddb12b2137a097abd2cbb9034432707522a29476f7),
  (false, 0x1666fbeeba4be207d95c7c5107fedcabaa330d1fcc127164b98e1be86b97e22f),
  (false, 0x84714427275e0c3b01e52c5608b61d36a1e240c4dcf1cbe990f3d0cdc9133d),
  (false, 0x140405eece76a1405a00df72e4aba2ddc6576a05c1a88ba93df4ca88f3c6be0d),
  (false, 0x3bc74c368d9cc5fed6d79fcd57b3b178f78f3140a4ac5ef46083abba1858d36b),
  (false, 0x3bb0df7ea419147cac45d05fcf404a7cd994eeae356b754d7f31b909161fa3cb),
  (false, 0x578be7b5459e9015533af5bd1fcbeae2af6e0d4498c8cd75fe8ac699522ba18),
  (false, 0x1c9f8d867d71a0ce9e6db309e4e1c97cac2decb127d7e498060b8f4af74cdad2),
  (false, 0x3c4b634b8d130dd069caa9dadaae7e4900ba081e7d1f4fcebd5183bb921eb5e2),
  (false, 0x20f404fb82d4cd487c3707974aa88d3efeb722e0ce5eee953f3abac772ffaf26),
  (false, 0x110b17189a46fbc28187ade8da383454539ec9851ab0a4beb3e50603fb2e84d8),
  (false, 0x396b46c7d6b52f2e7b38055408f7ea33601e8beeb7a12987d0789ed4025ddd89),
  (false, 0x2dd580dc218978a8c53f02512d136837eb24b0519a137d3ce03cff7a583b972),
  (false, 0x1c9754951a6e78eb578833abc9582190f0b25a2cff7b84bf06bfc7ee88efd602),
  (false, 0x35b982fe434fc6696396e13669e2807cf9f956bbb44937e41a320c5497309931),
  (false, 0x18e5b66ec626a7ef2820de17e3bc8ef259f5788721b713bfafc9d4acc95a1eb2),
  (false, 0x3ae964ec492c68ac7bbdc1bb62c6b1f70c537ff733545e49e902f8e0a78598bc),
  (false, 0x120421a01559c58e80fe209bbeb545066d49a39b5166af109e72247f2c95ad7d),
  (false, 0x1631dee3180a7027ddfb4535d48a2fdc372f02fbea121ef3191c64a6143c5c6c),
  (false, 0x38ad05b3a1f6d09d7c0528060503b36c95f5328658edfbca200975b1247f627b),
  (false, 0x30f989004777097854431f3be14264e04d23fba259b8e0155ee342e18f8de4f0),
  (false, 0x17a42859fd0060905fff8a7bcc95f9e5ce49078fbd996af47f7f296ca99e1db5),
  (true, 0x2f8bace2a149cba0ede5a992f74c1c90d525c8d8ee69a544ba44ec4818bed449),
  (false, 0x12665eb262f64c8739ef113e180a9ef25ebdb7d8bbbb19882663bae2817d6816),
  (false, 0xbe689934de1e64f1e27ac04e5db3206768fc891de5d2acfa054fc8e82d58481),
  (false, 0x199bfacc50c8e1aa45ebfbfdc7be5e4699c6bdc070e12d8030bbba28d2e2f4dd),
  (false, 0x14427f16937a4333fb41e487a47c09ad0bcd670dfc35961af3a5e5b46787732d),
  (true, 0x25a58f33b5e1ccf5b3a7dd32f60af4d4da9bcbcbe3c238b9cf969711f8e1e721),
  (false, 0xb18d0135abf7974a86a6af98f5db7cb6b9de5b02523f29e856d461c36dd751),
  (false, 0x12a1434fc1d876f1e63066416d5384d7b5006b493f2f3aa7c762a3e68695aab2),
  (false, 0x24d26e41655eea71445a280cd6946152db1b29d86a7cd20d563f8d76ed44630e),
  (true, 0x245a4264a3206036886e87971d42108e70d1cb43ff73ac2ab8e3c606eff5a836),
  (false, 0xcfca4833c36ee85e4a7204123f496e5122149c2e0090bf50302fb0462e1832b),
  (false, 0x268c1c16667f79eac25ad938998a06b8b133723d437bd5ffe8d938ce697d5ae1),
  (false, 0x3fcbe82ffc6d1026b0f45487c2bac31088894435dd25e1066e2b8e039cee43a8),
  (false, 0x3f3efd99e7d87d768d5d5bfe965a60f022fd7a4618abaa4f9e8e8e6071cce744),
  (true, 0xedad039286cd10f15ab7a84a8852fa5b8e8c967e62ba921d3508f83749a7d92),
  (false, 0x2fcff4412a54873f43c4d23b95fe37822644464d1ffbced421a1ce4edffb9f99),
  (true, 0xb9a4c51e88d9a834b8883ca099d2e65c10650fff4f59ea12cd0dd7fd1e35ee2),
  (false, 0x27b10b483b5f1ca3456290ec98375e08b314a473e63e593a732bde01e78a8143),
  (false, 0x17aea017c658fc4cf69764d564543aeca1ef4f789907a6adf30a9569597f8ef4),
  (true, 0x34b28bca7e0a10edfb0f11c46fd4c0a6f243c050a7c83cef2c70a2b53e95c47d),
  (false, 0x3dead10c3ec458f466dd68c85ae2cda9f99f1252987e74687bed33822b673adb),
  (false, 0x4aad3ae7c915df7cc08a974e3f40558a40e93f413b602fbebce89f897375696),
  (false, 0x3a7ddc99481ab33f7cad9268c880f27b3e42186b41f59a33cd015ebb8892ec97),
  (true, 0x6e3ddf522203a5a7cdbb6c90ea65e6a9a5349311bb9ee83df212b374848ca83),
  (false, 0x63d21a0036f130fd6f0a5fb4e6d80a9fde8750dae47438c73ef30d37ea9d59c),
  (true, 0x2817ae1befb19a09f75f1de1cefcbcbb88fa9b8de6b9dbaf4352d5cc79f87b45),
  (false, 0x33ece0990e527d214ba4e88e4c909ae5bf630ae10a8cab60d80762a926fbfe5f),
  (false, 0x3a93a15c32290a8726f13ccdd6e1716697c75b48a40c1e73b58755b4af22bdbf),
  (false, 0x1205f34e5571ef7e59854e0d3d5fb4e96b48302853245df1f085f8e22095a207),
  (false, 0x294411e05858e80723632fbb3357f27e4dcf11a849d216fd20431e2321823134),
  (true, 0x1d1188e59ea2760c3d97563f32afa451d565721fc8fb0fae62b220d93e4ee78a),
  (false, 0x1f9a4c77f4c561a4c8a8c3a3f692099d4512bab314d84783c676ff36da550d45),
  (true, 0x1e2bcaf3ebacadedc4eb6a3abe5e127f49bf6d5c39ab45793ae6e224f86b807b),
  (false, 0x2887c6f943afaff8123383a74fa67c62775eb5ef5e426fcc962c13605bd9191d),
  (true, 0x9d57153da500306d3dff078177bf5ade03e4633f9f3a6dc5e8fdaf63be40ec1),
  (false, 0x12fe339132740ec2faeef3f495c0ce66048017ad7cb6302b4381417ece745208),
  (true, 0x35cb3ceef8d8340f37e5bb3f233a52fb0ab197acd9094485f560a1bb7b1644ea),
  (false, 0x1e364f67e092d8c745e9f6f82d93359c403c73a4e6934bf89cf63d621a2c14a4),
  (true, 0xa6b9a032f147394978ba70e1676a2b180ab09f9a0488cd62ef20cd2ae8f83a2),
  (false, 0x3a96a3b22ed8b96200209f99820dc68cf26401d97d69056ba94515a4efbdc346),
  (true, 0x768d5b8cb8a612c5790596986b3d20ef1f573afd7c4c1050897a0f47cca241a),
  (false, 0x30ac0be65cfe13e4ea426c6119ede7d501f702770bec29c500f6d4ea056b13aa),
  (false, 0x1b132dddee106543e213386f85ac2faae2ab006feaaa6115fae41760c7950320),
  (false, 0x26bcaaacf73a13dcf6b71b719e51a56ee43e9cf09187c49ffe00666166014b17),
  (false, 0x14e828b45eecdd2acea5ecdf4391ce7eb30ed3198bc0a564618b935dd5f55074),
  (false, 0x355ea6a0309582bdcc15dec089879815f0e2a3965bc195e86721df73e36003c),
  (false, 0x3655e683a96948501c90b79e8c68c17ff00d33d502079d061d1786bbfa758a4f),
  (false, 0x2ab9d5a9b031755427c7035f97798c8c65ce1ea2f181bcb6bebe9306f47d21da),
  (true, 0x34a6b257bad06ae938039adc005ddd716e9f3bf608e02313271e3727965b6d00),
  (false, 0x25fdb39950e74c461843a9ed9e4884e3c497d7685dde0439bd2a456d73ceb9c0),
  (false, 0x25e0d1cfa4d052de2f10ca9c7e8f2c8d78116941809db5fbce8af5cd1a60d4c2),
  (false, 0x142fd6793abd99b064dd946f862aa27a96480492222234830444ca47c266f606),
  (true, 0x1680a65dfe2e7693474d9be30c593b4d3630f630c9e7321df9b676656f81afc2),
  (false, 0x26881ed572bca5d58566fdf0ae60bad4ccee4c2ed6b4bfe7790bbb18dab41796),
  (true, 0x2fab8a6eaa2e4a821383e1be090120fd03ce79c461346a5e1449e368828f8b0),
  (false, 0xc7a905f6cb3e914de3afd528f6ee90d51f120167fc6ce838e9d9687e9fec2f2),
  (false, 0x3baef7f93844f79baf232fb3130888185a96aa6746585aea99116129ec230a78),
  (false, 0x3151aa1726cf4ef38e725586068f8ce140f941795ee7ee7eadd9fa598d2b3867),
  (true, 0x18a09b32c84cebbc74f7b83b4e7e2b0612b98d97e1d5be17e69d4fac9b9f1c2c),
  (false, 0x32ec1ba2c5756ab4c127fd990b1f446fc29c85bf9ad17f81fd7fcbaf198056a5),
  (false, 0x3e20a6121789f45a94061b097ce0147db88ef3159e89ec29d2ab0ff550136229),
  (true, 0xbe804b3c6f3cc58a1aa48b75bdbe0ff238620cfa77dd24436efe1f07573a8b3),
  (false, 0x19c61b74d1f5df2a2b99629c142b4da1c59e4ef6c6af51a07a792c8c3737e057),
  (false, 0x29a4b1895dbafaca845fc401acd3cf0428bbbe4f1c6fef8a1ccb9685abd703b),
  (false, 0xed273c9d314b06819a33a80f623ac784bee1e4422a383153f67ccccdb8721f1),
  (true, 0x241df3df197bc983cb0c756a0a977f8819410977e351d8edcc8b47ddbea4fe40),
  (false, 0x1c0928c8e143d8aa6008bd2d9289c59839e159a5ace152cfccffd6748a24bd0c),
  (false, 0x1ae3024a44daa79f45fd1bb7a731b23d66bd2d84c9a4558fb6634e5874e2d069),
  (true, 0x2f541c0672c095d61c8cf9f9bbe34399ca8c1f7f3507e3b01219badf0de8ab19),
  (false, 0x323c65230b2b42364e10cf4491baf1d326e490af865d0d0ad72f47bb3b210c18),
  (false, 0x338ec638fb3523c427e172e4d0050c0d96eb7b66e8acd328885eeb1f07141ca0),
  (true, 0x528996ef5526de87ab218fb02b051e00fa4e781321b042c634ef7f7e300b85f),
  (false, 0x283c0d41f08db33079f9ba2c2b29d0f3b5788b18840f40aced5173b3bb4f2d4),
  (false, 0x1bd54ad53321ade46825a2338147518a933af86c83c04730b4b3a15aad0b05cc),
  (false, 0x1e630746005e622b2e001012d7769599bc3e32fa8851eb63070c82154fa4281e),
  (false, 0x30cdc9e4acf80d13d2c087b9347755ddbdd41bd13badf51de1aa61c99f14462b),
  (true, 0x28c5311ca1cd380ea67b0aa2d4382b45c1472556f5a331b60454389a4633bf0c),
  (false, 0x23e787c2c7e01e27f9347dfef3adc107dac1788f7f192e3d900f805e5d89d067),
  (true, 0x2b0437e9d6716d02a8ef5455d53ca0471cda1dd388f7b513ee338ef14789b73e),
  (false, 0x145f46de81b8c0213521069e340300ed776d33a2d99ca99a6311a5d580d0288),
  (false, 0x627e0e01948ffe68a2fb3eae8de0f8d4f5e0736fbbbfb6bbe56e091272782e0),
  (true, 0x3b1ec41306962f6cbcc75113e2598a3f26c4552a0ee9598529cf4b9ab5d05b80),
  (false, 0x1e22354c382958a9955143c3ca347a280813bee9ff1f3b9bb87fdff3329d4c5),
  (true, 0x3b69137c44d557cd4438be21f23f10952705c307233e17fa961ed501ce49d5f8),
  (false, 0x23e2f7d5985b589567c4324f29921ac8bd9193fc90c7c0528417a2e28c980be3),
  (true, 0xe0355ee3757e674b31215891d4592ee71993416fa04630a0731195771076a17),
  (false, 0xd55da5ea1141c230d403ad47039a2e7d3df2dbd425720a1da5ce7829912813b),
  (false, 0x3dedacdcd2ecfa8dd9f2fb595ec3c3526b9af174b466f437d3305fcc4e684592),
  (true, 0x5a73fd1db0ed81616a17bea6d8d75ab694fda8d508a674dc69024e7400db6e3),
  (false, 0x201d3ca07299647620549d4299a586efb445cb546dded9e5ec0766d8e9796860),
  (true, 0x3215ac4e8dbd17536bc3a8860eb8df3b0c45cace3ebc413f368024f1f0155595),
  (false, 0x37f6ab732bd1de33c88df3e153e155ab6c8b3633f9d725cb3181faa5536983d5),
  (false, 0x33f21c40e15275d24e4ac211b7afdd9439937d4cf8eee4b676ab57788ed3a1b5),
  (false, 0xb4b44f4bd40db30519663b5793b07fde83f068756a74ebc3d32ec333f72eea9),
  (false, 0x3f04b8fedd1c4d71da15b72d12f2493526d90fd331cb27cd766ea3d49a800878),
  (true, 0xb1af467bb06f031db1876955715a761dbb31999f0159ed831a452a2b5b39581),
  (false, 0xbf8cb03ec865dec6d1914062e4bf93de39891ae587835b796d911f8aa8c6e1b),
  (true, 0x3ed49b8c8f861db02687a50bdc43a7dc17e6e0aacf8ad5bb5cbbdde31ff12e5f),
  (false, 0x33ca752f3f9b5f8c05817284ab7bbe7fd735adc3a133ec1c7b69bb224b95b123),
  (false, 0x245376232437f701fcfc96ece0310d25d94e2dbcdc08d25d0973e377aaa06288),
  (false, 0x230cee8db975d3f8b429884bc77c790399787dbffd9a63d1b7b0d813ad98f3e8),
  (false, 0x33d20726bb420ed852184e0e4d8297fa996919c5bb7bc8be7e61fa4a317764a8),
  (true, 0xb279383f91a3ab2f9eeeb5c16acd733916ab7d67bdad686b1391c6e0e6eb80d),
  (false, 0x25df0ea198d2371c484137fb6822c4c319d23680d6ec2ed95c2f238c6e868282),
  (false, 0x17a71c9d13be712dce32196765a944c0b5181bf432ad513e0a8ef3c1dfb6734a),
  (false, 0x31148fe0d29c70580b9f2a8c2c18bc0848381d1abd2b7a709d973995f1d0b47d),
  (false, 0x30b801e376417486fe8f4736f3ae9910e3671a4e6a6f21df79f78eb66b26f31b),
  (true, 0x300ca4ac57059acddfda2bf2518ac7040a6c8b48a770995b32b0c214e0940b83),
  (false, 0x1d99b8cd8a426ec12158f0ec5f72649f43901a6c3b38b81742c742cb234a4586),
  (true, 0x29c5f8c69d1c2767426525914a5d7982d36f5acec2ec3f18f16d3438770e1045),
  (false, 0x36486b844560ad71acc7ed4ad8a1ce49a082117bb497daea907939e593522b29),
  (false, 0x18d14fa57487e13aac42925d2c467c3c83e2ad482eb6d4171f369830408e4418),
  (true, 0x2a8fa18d3a08ca0f604833cb22c2ae82c6eff2e255cc317498d64659e51d7776),
  (false, 0x2ba331bffe75bb696c2790dfa47c9f0afa8aeb0204e762b66b52aa7d8f3b02ce),
  (true, 0x2dd2b64dedbda31edb1a6cf527ec81ec055172fe377bd360971be12ad729ccac),
  (false, 0xe63bf5590ccad7f9ed15d6084c98775aaf35c8c93ce9443d89ab9ca7952b6f8),
  (true, 0x305a0f8d45a19f88252d953c620cf151364ad7750f49de4019f8d5ef7a810bac),
  (false, 0xad306a43da39699bfc1c83fc7f47d307cc145dd0ee5384a73f5d4b1b591a64d),
  (false, 0x29226f962564d1916920f2e4fb63b9435d99b2ae10569c9737f92b5025626cdf),
  (true, 0x9607418c81430fcbc0ae740437d02e85d1cf5748fad1906beb0feedd385e56e),
  (false, 0x153a4e84e8c40a8eada90a08cd9603a0a78e4d46681d8cc7b58483ef9e21215f),
  (false, 0x1b51efbe3b3748a4610404988a7371b3591e07d7eebf90728bd4d9f634b39c4c),
  (true, 0x1ca570ec0ad0c8cd809344d44e615742527262dfd5aecfff0602c38232aec1f1),
  (false, 0x2fe38b1858a532cb6722c32b42c5d1388eebf05fff581d9891236f62ebbf8111),
  (true, 0x30dec4a1f9618de5005c3a2c0d3b52538eeb371ccf35972999b9bb63f9329fd3),
  (false, 0x13858f5cb48f37acc13802d0a768489645b773dd7261cad1ec61ba386efb3b27),
  (false, 0x2989bb5c5d7d806c90f882f28d46bb753bb1b8d0ccfef2bf504b7cc96cc8cf85),
  (false, 0x2585e854ab15f5599b420922e145ed5a2365299ea6ce4cb67635f3deb7440fde),
  (true, 0x27ae6bb77df3b6d1a182ef3a032cc05dfd60d3a7e513cf43170645fe4cbcb88e),
  (false, 0x3e42e39cb1656ac08c844e5c1d6d606c3cf194eff1df75a6da472d2bb9bcc47d),
  (false, 0xdfd3516639091fe7cdba43fbfbdf6f85e284fc2f7790fcf0316724b8f09ebd5),
  (false, 0x2017a5ed2a271b9662ecad0a855b4879a241d75db37bdeeacb3d5af73f4ecdea),
  (false, 0x394d97efd9a8cff7fd41fdcd834e3603eff6ebcd71e39b334730bd2d3f1ceacf),
  (false, 0x1a3f461c51b9112c6ef1526e0e595b4b1078967fe9f0a722b7ea3eb50993fbe9),
  (true, 0x3b11ae324fe0cbf76327af3cf70247f007971aaf9b61f93a8e8405b2500f9464),
  (false, 0x26bce440be6efaf667ccb6befbed7365abc73c51df7d1633b9932ddf4f07dd7e),
  (false, 0x1aa136d7a4df0848db98e672d59c79b03cd66548532395251aefa9248e965ac8),
  (false, 0x2535ba06a5c70cb4012e7ff718ce5b4452f48d9c53d21476eb056820c9e5e14a),
  (false, 0x3456d6c2a8fa2f44a3f97aa9e500319802dc7ab02b5cf2c30393022ed0e21bb3),
  (false, 0x28508e72ccd6d2c9be31b72b29c500fcdeb1d28169c0c44cb191d3ec55bad410),
  (false, 0x182ba826e204639849803bf1a31d423722769dc5769b28fa8880d07868483c56),
  (false, 0x2571aee8444251b8c579de23814bc24ae43c0fef5b0556aaf51cf46405ef8dae),
  (false, 0x2b6733c521c7535f50e3eecb011adc9cf494565977bde2b867e658a77287a7e2),
  (false, 0x8959178a386630588bee663cc589607dda2bf8c5edaf7cf86eccceb49d4105d),
  (false, 0x1cb89b8097ded44112aef236000f92cf0dd78e8c45dceeb826fb55a6cce0f232),
  (false, 0xd7003050b6440416ee7dff0284ae5b94b00692c081f7d13c0a9a9c7e1d3c38b),
  (false, 0x18a36624eb4a9f05182e1fdeafeacca032b2d4144c7f88bddb8bec8cfc5c24cc),
  (false, 0xa951433000a3576993c038f903ce5e41a7c006d78fb6ca03abd2f509be04dfd),
  (false, 0x23ba285007d9dc31eb8468dca1338a935d8f42f1663cb3918fb73b1ce0745b43),
  (false, 0x1b64bd9525c572bf03fbe1eecc5545af17783a370fa0044c999a2e614c2db2ea),
  (false, 0x19e17bd8911b09e35f304ae27023e001c8fcda79d4bc3f5866579b479e5d8a77),
  (false, 0x3fd61f4ee2cfdd6f6177c7cd29ca33ead4c883103c721e2dfa655311605bb1a1),
  (false, 0x13caa1483d493454aa0c2ed420aa8a323997627ced14b44dd04bc8986e2838d4),
  (false, 0x3ee3abd4b0d8377f5507a1b73fd7976f9d61dd7bf6cb4e824bff3c2545d16213),
  (false, 0x22ac75356414b78a24c9563d02a2db891f0431a5ea39608706d7f379337edecb),
  (false, 0xb46165e295014e3b332e08062a6c1ecd8f31844a409e14f45ca63f55dac64a2),
  (false, 0x19d9f42cd270c162cfedbd243201ddcdef0684ca05d4510c831470c3558a9c11),
  (false, 0x3e06fd3f3beabf37ec43d14062a79740cb98d874dab046e46519ff214b129c1a),
  (false, 0x2c947501f7cca2587d0b62f32fcafa9f196d0607395544446fcfaed87d4a2a1b),
  (false, 0x8157ebee46819961bee927e16947e3f2865fdb3e5b29f5098f9fd4446e535a8),
  (false, 0x96bd0b3714e37c2f005513e0e9d45321bf56b90854d3ac31673676e812c664e),
  (false, 0x2e8d6c7d3a84ef141e555f09489383823cb05dcddc6ede6c14e4f40e9a49cdc0),
  (false, 0xef72e65dd2a04cd559d820529ec6abc46be10a870315a797797bfe9085c9e70),
  (false, 0x3c7d38421f0497682e403e6e7c0c28f71ecd1a20d6534907fd14f5a3514c1cd0),
  (false, 0x15b4a092416b08439e73283d6ba926337a2c1c50d0bb68baf4b30c3403ff7568),
  (false, 0x337d9566b34be71f017ca02648540b2172e92b6c6ab70d39de3cddaf0db0bc53),
  (false, 0x515eeeaa58f1b19b4fa19809e6e0e0e1432cc976567c3ad6b19ccf3aace895d)]

def pallasEndoChain : List (Bool × ℕ) := [
  (false, 0x3000000000000000000000000000000019b4f2bd06f9bad4b2e1e4b1c0000001),
  (true, 0x8fb823ee08fb823ee08fb823ee08fb828bd8ebc1345306fa9b58021435e50d8),
  (false, 0x1b22b95dd8e8306db7bfb0d2b09880a676e02bb4fb295b0ffea91427e083b39c),
  (false, 0x13679e4bc460923dbf6710e16794bb8ae509fcb323bb2c575ae6b54a67ff5abb),
  (true, 0x14a38d2820d12631cb1a992ee5c30897fd6c5a6acc1033de544e48853804724e),
  (false, 0xa601dbd4e2c9171ada3aec70580f8eabae5140aea1b3b79578099196a23d782),
  (false, 0x220ffb3f546a1a454d818e6018e29b842b3dcd3ba107670b7938507d77a407b9),
  (false, 0x1fd6870987397057e0e280c986d31e9eb21bc7b462c4cf0b8cde517c38d5be13),
  (false, 0x187c56505b0da4bafbf94c4af6487b41b419dd0bbd3bc1f825ab5071935704bf),
  (false, 0x1fa27bafc4ccfedbf20b3dbe2ce2a2d4ef37a0d6a0cd0f42d436cf76e7f380c6),
  (false, 0x3d32de6993b5bdc904d5ee4f23c058762f30eca36d082a3f0245a73d2464b543),
  (false, 0x356964a87786e9462776d1f08f64339e650c5859a55084ffd0f4de39e4e67aad),
  (true, 0x272e37426a111b101430200ef53346d9c4af8398f6ef4ee33c98a29cbfce945d),
  (false, 0x3081023b612144bb24de73c24bf6ce1a40610e53d27104088792e2e4d720e948),
  (true, 0x302e65d3475f32bb5a5d89ecbb44762b174ac327aecb8524e14dc69472712ba5),
  (false, 0x106d6978be18326c89ea5c65a264202203c0a99aefa1930becc7f4e374810b76),
  (false, 0xc2651af52b34f0908e1321eee04f771afa1699c9ea3c63693e367acae9c40ed),
  (false, 0xaa7526420ef84674a441c238b962325b58e51dcf2a86c2b74430cee3260061c),
  (true, 0x3be75b32f3cea417f30e8236df4350af271f9070a3bb90766119c01002ca1ae6),
  (false, 0x303ebf5862206caf7d212f3656f5870a3bd0f10f887eb3f83704a8946813cd4b),
  (true, 0x390b3cbfac55a9735222c14e52b10abc068c06543658ebb95be5476320f83096),
  (false, 0x342e95d9781bd98ad2101427c11e1a9ccca26862897939169d71eb29ae5c750b),
  (false, 0x1024f4caf9ab0e24e252e731025fd3181158b5654e9fb7d3483331a4c67588c2),
  (true, 0x2703edc5dd913f46efc1b293c183bbcb76ff2cf5b561b747daecf1b3140498b7),
  (false, 0x1cb07a76404eea087fde157129a9685a781b8f99da84193da2720dd961b1c8c),
  (false, 0x32ad916dbc902a4e7f94297519ea526942f0c77099e71141eb3ab10ac1818a9e),
  (false, 0x1f0317de778fbcbd90afe46aca9d17f80f50f6b06157a86fb3e4b71eb1b38d51),
  (true, 0x3e5e589402f626618b6fc0d342bf2e5b78a222692080be8e91af4f5186a74507),
  (false, 0x3bd37c0668b984ec6bb8a9b2972de2da07064e39e39238d75934da2237d34d1c),
  (false, 0x39b231973bf2f9c1b69fa10f4e27c810db8001bf4988a70e1a33128f2b9a9571),
  (true, 0x32a805e519aa169ecfb5c4c8e5553997644c7a4a5e769831f835ba29dd805bb4),
  (false, 0x1a3707c47874e1d9486dc392ec1364062b125353e308ea5ea6034d4bdef4a7fb),
  (true, 0x3de286a22277df477bbec556556cbb9bfa19a96ab1b7ae8d55c919fe429d9048),
  (false, 0x3677148adefc0b389c1d3c5cfea716858ff409f17aab7be6f2a6911ef96d717),
  (false, 0x213f25ab8fc1aa859ea606a37f361c75f11f41b79f5f33e1ec78ca8e8c850a77),
  (false, 0x2456ae33fc685ccab505f0643117a723220eac988dc69e7f11476b1a81682c8b),
  (false, 0x185eee061ae29f951cea65aa2d4a80a6e3222ea07a1bbb84de302f2469be1522),
  (false, 0x2fcad3f819cba94d892eb29b8885961375820841e5bbed39871e764a36856588),
  (false, 0xa74ff56bac1ab8a6920aca9edec4975bf0282a925c411c4eefb8e12bb58928e),
  (true, 0x2a4c5a68dc8ddab696a02d50adf8d7f31cb17fcb0c6a0ae89ce3082ea2fb80c6),
  (false, 0x3b8d679da5cf7fb2ea5eab9056ac8e2dc695c14b75b615ad55e128cf40300b06),
  (false, 0x3b6a8925a5eba720eb91d54587e4dd7fa3fe9098104b4b4175d24db0725c4e8d),
  (true, 0x1b955b033b453e195772a7401a2c1a07e7607fdf00406aa56448fab261a43381),
  (false, 0x31a6eed523ac8d067164edf7b76486494a2d69f2dfa4c8051d8e607861cdde04),
  (false, 0x226094717bae1d427065935922952df845f89821f48b9248f18a3534abef04a),
  (false, 0x1aadcd200619bdf90cbf329dda04ad9a4d96359b7eb478f053dd341b7206cb16),
  (false, 0x787cfe2daeb8e986d13fa303c7de0afe075a4517ae24739653ee0f19a233fb),
  (false, 0xcc96883686f1c3a56078d6e297bc6a835416cfdb2c7d11500e2a6ce09d449e3),
  (false, 0x3b28662d271f961c32b098cfb36848e5992702610ee1e0dd8585ab486e148a25),
  (true, 0x3d5abd3136f5b96db267e75d78e83a3ab478279f572911623cf6e33a2b08477b),
  (false, 0x1e4a5535edd4e6c5fb13503ee4828391bb7f2937fa256b16612de9318e9546da),
  (true, 0x1e2f6700672daf6d410629f2ba670759dff2ec172bb00cf60df1166597e3e98c),
  (false, 0x1f95024af7009f5220267b24df954f3753e35c3072f089a221c71d1bb1f6faf6),
  (true, 0x265bf5dd631cc08165a9861ed30940a7c6ebce68e19acbc711ffd6586cece869),
  (false, 0x349483187eac5c43b90c7f443da83ce6c851340317a7f81a8435225f482a8dc0),
  (true, 0x2596084fd52f33ef595aae46d7e7934396ec6644e4d23512da6b80695993b781),
  (false, 0x2fca95faff3839b493fc467e81ca0e8d0d0be95e13c8e8f051ddce210cba16cb),
  (true, 0x32de8e85dcbaaec9ec9dab755e4619071d16d40a6eb67b669d22fc415c1d3630),
  (false, 0x34ee00b7a12d393727846984ecb801210d2a808ed0908fae7d05e7aa2c46ce8e),
  (false, 0xecd640e3295479953c1068c90221711efab0df952e4a54488ef058c810fbc5d),
  (false, 0x18d6450d1f52cd4460c1f432c7159a3b0dd6a0f066ba2a73e593c76735b4b2b2),
  (true, 0x372d5f8c4bc3f46ec6b0c4529ab12acbac1c1e9815efbf0cc4270d7b5a01e102),
  (false, 0x10997bcf61137e53614c7dcb537b5b810ed5fa72cc2c468ecdc45ffb60735efa),
  (false, 0x2185eff6145873e5a94487fe198b532e918f53e3d5a5cc8c553d8031c3e7bf1e),
  (true, 0x39e403f04cb410ad5643803654f540459227b6dc67d0432294b15a38aa1159a6),
  (false, 0x18a8a324b2f8fa413c89ad2aff2a12d1e0c0701478d60be3e13fe1d31e6c9111),
  (false, 0x1a7cd7e611341a2ed2c51977db4a6d8160f8af52a340ddb96ec0c7720d6c5e24),
  (false, 0xa435ef90357a51548c4b341a4214b5e30791d216b6b0a46a1167be3053671e8),
  (true, 0x2e1ce2ad71700726fecdb85ea3482b42de6a9a9e4f556fdebfec98da0ed9d8f),
  (false, 0x129d0b016a573159a8bd767ca56e8d874885fba81f03c48efc64822b3c19abf2),
  (false, 0x228b48eb65d9c858c37debade1954b08c0d0a1f19ce1847722bc1ee49aa9bbb),
  (true, 0xc925ed11120b3e36fdd79f11dfdfb2bf0dfe5d33b07efb6b7c9cb86901e35bc),
  (false, 0x39ee4ae5165098dc7b2ae96058280e4f47089717b82f9183732232eba45cfdf3),
  (false, 0xb1ee9f8da828754b94e7b8b46ce3f7d0480baae483b2e53c00819affa67e538),
  (false, 0x14f97592375ebc9645c1c0b22d841b3d391d8e244236f85a1be95985332976b4),
  (false, 0xa1485918d61fa6d55387c5dda1cac1d3e3c3e33ae11e8aacefe9acb4180bc57),
  (true, 0x1418cd7562187a714e22f6405026ceff158a047b9b4a4111addc779159ba4817),
  (false, 0x1929026406a168049d6c0138bef660baa813661df1db29601ecde1cd8cd171c0),
  (true, 0x3ae609e29bdbdb22244be49d8fb19771e07c912548e187f981298c155fb5d4e9),
  (false, 0x336866833386ec91b92a72b195537f9a62264edbdd97c9768542adfba4884a6),
  (true, 0x122914959de25e709969c0bacea3e42418113f7e1b950ee717a93c7dda31875c),
  (false, 0x337eba0dd06e7f3ca8c12a362d5c563e3f8a90204a228ee400f024054df50b95),
  (false, 0x1c930f710b505bcfd5bd57c21add4001dac53d7317041388e9ed8f40093d1ef1),
  (false, 0x36f9278948cea43530bc3ea78294ee71a2373961178163834d73bbcc551962e0),
  (true, 0x749308eae19fa43d0b80230b932be81ddcbbc5bda5e37b3a71a8316baaddf33),
  (false, 0x2a7295def4f8fe887e5ed8f69774a7207643ff19783bc4b5026d190d4d27870a),
  (false, 0x2d4e9cb00384b0debb210ad761b6ee4cb824d4925e9e9250253fe40c1064c998),
  (true, 0x62a857cc8409776a0d9ead216a5bf9293b42f1bf5146bf7f5ff72653e2a068d),
  (false, 0x3a0fd2a74c18f304cf8f5e339b473ef101d401283afee99cf2f753423004d678),
  (false, 0x2194f886749f650dfbea688d709c60592d81e9b1d2f7117c9f1f44f4fa1ac333),
  (false, 0x2a0b763792d58a9192d2c82ef2fbc7f8e547901798a036103c6be1d5b8f2eeab),
  (false, 0x2d77f780e4267b13bfc6c5522faaf5a1ca78226c8a7686428b8a33594552acae),
  (true, 0x145e78c50d1c8ff54615f18bd9fde81842ca72701ba94d5e39f51b55ef6e070f),
  (false, 0x222bebdd3cfafed71661f3a4888d94d06372e3d6d96b0afd27c3e23edf040234),
  (false, 0x388da08f45070fa378539c7d57f50a2d034f6b696848a4a681f7299896d0694e),
  (false, 0x2ab0cd42df9598267b1464677beeb4be9360925726f8e32563e4d1b4aadfa60e),
  (false, 0x2629e5ed040ff5c106adf9e4d176853288ca00583e362fc130b2ee894aa9e674),
  (true, 0x139ca988e5a49fbdcc4a2d81259d71f6ede7fb5fc2b8c7d1edf329f8ecb85cf1),
  (false, 0xc37a1961f433853b44f90faf0362a32280a61d6da6d7fd3a912cd62bc6d5b51),
  (true, 0x2f443df8ddc5e1fa0b22278ac76df86df20e920b7e5ced3ea00d406661c65e9d),
  (false, 0x136dc64c5494db7db9481eacd714b864342f4a75ca498b73a42b3153220c79a9),
  (true, 0x3223de23eefef9109b3acad05492db5d0d59bdc23c1b40ea907cc34115848181),
  (false, 0x18dd02eaa314a77e276a875391944d9bae3a58c9fa8af137be4c9f8ef6fa1fe4),
  (false, 0x8059003078ecb2d026bc7c27bdf1e8a80299e4767f9f41d3af5ac39d0d927c9),
  (true, 0x9d9f674b49ccdd56e3790d903c982b779e0f5e74476b8ebd6949665437ee718),
  (false, 0x72bc868b95132957ff91eafc11a2c6b54c0357b1d887b02989d329edfed9f79),
  (true, 0x301ebfdeeaf4c0f2d9c6eda0196135b1eb3308f9767d7c43536d8131f959aaed),
  (false, 0x270263a3ddea5ac1628ec2b8db9c1b0eaaf8d7904928cb790530a806867b4d10),
  (false, 0x23d4ef5c5b1c2b1d6fd1c92c30d7f6e7b17bb1dabdd2e21a761074bb2795b7ac),
  (true, 0x2692e3935290d1b6d702f8a72f281279fa6b7d8b90631fed7afc62e8daa73caf),
  (false, 0x2ab9805556bd2ee174af02f060274e7e32ce4b7d6f643c71067808ca43e423ca),
  (true, 0x1bf0a621deffb2d5bd029070712231a94ced2c462066f483188ea7bc639f1968),
  (false, 0x116f56aadb4f257992871fcf59d6b868e8ab6be42dd1fce7ceec01706ea03aed),
  (false, 0x1df170ccabfefdcab9ddf8e47c643affc9806bb407fdcf0177934766e3d5f064),
  (true, 0x188b3a84ff41925e2750a5c0e60b6d63e07ecdd3be1fa6eaad27d058ad01358a),
  (false, 0x227ae3545d3eddb8313781c30b309155d3f444189c93ac657cb0052067d0566f),
  (false, 0x8e152ea18ff85e6aba13f5c2d6557f46eba45cc85d9006e53c0f44f69c274ca),
  (false, 0x172b91ad34a377b1bda253c7c203aa2f1d8ca201bc890632c2a2ce822fb171ff),
  (true, 0x3d64b4bf61d5e2aa701bd7bef80dd4685d68347569b05b4d4598489bc791b4a4),
  (false, 0x3c353fa1f1f9e3319ff5e7febb0ac302151e23f83be1e582352666bfd92a0d2a),
  (true, 0x5777c0ceb3a636f7326d0448300789f5e815c3e4e89a5ef855bbfa25ea656e9),
  (false, 0x2708e0f6c718b637fef246ad036bbaecd84ef343fbbcf5e40d688959009dcf9b),
  (false, 0x1ffaa8b5e2b5f145c5b23f87ae9165c7dc6028292aeb09b7d5dc366136cbd10b),
  (true, 0x1c4919376f78aeedaaeab04d2b7df24ec5b0af99b97248a6a7c999512f8fb677),
  (false, 0x2e13fb2d221a9b490bbe57debb329066c0a20c2e2b6a67caa34e02c1dbf65944),
  (true, 0xcf16411b584d5550df9651d7cfd1a6b146ce4f38a672451fcb8f723fece7ae3),
  (false, 0x377adb3b1359577facdc0fa68eadda6674b59a84afb519d58000ada468cab8fa),
  (false, 0x47474711a034f4cb274b0f4aad5644eff188fe00a263a76e6968e57ef17a243),
  (false, 0x545fa7e01c8d8a0116ad6f1b7e47e2738afbeb0d87a5a4e92c85486a020840),
  (false, 0x4d443bf2f15276a9484265ad4b36f374d7ee334009b38aa646d58905ec549f3),
  (false, 0x2cc063570730b98d71bcc1b75be80b1c34cc5ff215f95bbdbee7a4e67d279a58),
  (false, 0x3e79c648362dc83b5f45df879df3fe71da92ef2e8290f6a6c2d8d95ca1ef072b),
  (false, 0x2a1ad30b27eaa0320a4e5c8afe228679961c3b0a3a69ede7e40b2af0baa45457),
  (true, 0x2a9679c58ded34a0055fe63c49fdc9be6d56344bf21081968e9f81ce029e1fa0),
  (false, 0x233a81ee25696f7d5b39fab4f83b556daf95409b11373520b7ab4c2c71322ff8),
  (true, 0x3c18fa49eabf95d8cdaa95f57ac9ba187a68e1de3818dc2506cec0372e1a0f11),
  (false, 0x14ac4bcb509ff82af5a0aedf5fc0ef69fefa616909b9f60354f4b01a1cd8f107),
  (true, 0x138532efcf67c1d082938ab62f902c1e7f2bb140954530c90f3be3191b9eafed),
  (false, 0x21f683deba84d95af44ec493b265d99c21f1146394b3958df9da888ce3472571),
  (false, 0x12203864d22bc14926cb712a54c2d924de4c9fca018b55c3257040261a26d548),
  (false, 0xbafbe8aa0ad9fc17e20914c300b4e72d1ca13544df86383c1f7603695c42ec8),
  (true, 0xe976bd50061d2085323f6cefe96468cef58825c9f395da4044988828d4be165),
  (false, 0x3cba3884c3af2481ae369497112c04dbf466a31bf902fe9baefec97e034aee5a),
  (true, 0x3492fc0cefd52f07fc82a434755753a30c89a59aa3666725b1b1b52e9b0e7cfc),
  (false, 0x2df32c96e22d006799d7a1004b614f3ddda471a1e03cea493b9730359cae08ab),
  (true, 0x77701218cbb4bdf22065c03a9c5356ae988abf493e4daf6da5246b5e1235103),
  (false, 0x13d26bb0ccc77b0e6eaa0b9f7d42656852019df3c05a381b38fedc4c64c098ee),
  (true, 0x3780b1ba9fd73518ac3cd174ef219fc7839e13a33b7a68ac089636c4265d4b50),
  (false, 0x3bb9475e7580bd9178868381d636cc6e46a912d4a663ca0223f5c8310a238a1c),
  (false, 0x1bb0bd40b8708a2d95d730c3acb8b45dc6f6c337ed9f4711f689d676ed847590),
  (true, 0xeb117d88f6337395b2f8ebf99caab40c76ba089cbf5ebb824e958d090855686),
  (false, 0x1b9b6b23f4bda3ca85f3f9a2c8e24923da654fb55012243d45a23695b8ef65eb),
  (true, 0x35efddab652c26297e4f0b58e749521bfcf9ffd0a9bf14e8b13569452368c45),
  (false, 0x1774ec29acf5a487c2c7620be2f9008310f2b910d0bee4047d95032b076eb670),
  (true, 0xbbf952afc7e7ceff3cfb269f13bd5142b755ad692a5cc6c48622bff60c0ca57),
  (false, 0x16b4e8831b72c3a14c79ad1bf8b95a2ec8147fc7330be385e5424c4b0172e5fb),
  (false, 0x1f965986a421e3c5c7097fecf1987674da53ed86219b8a4dcc95c9382c99df0),
  (false, 0x1ca79aed1ac98f3c4e4d327f543b38609a4bb19b04f0db44c73f055f7cbc9f89),
  (false, 0x28e8aff71c1cc558b5398ce0e66367792b4016ed26674576333d0798bd42072f),
  (false, 0x149ac65641fa3c68c9a939a792988ef33a13efd4b395a63f8b1b3f769ee002b3),
  (true, 0x23b84d82ee65ac4e35b497e9832a76a23d2130049fca5cd4213409cfb51772a7),
  (false, 0x89f63295e469227aebe983d1b6ba1cbb21aceaffb12aabf4d2cb0e0ca28d2ba),
  (true, 0x19d819be2ca827db4544b8c9f8f070fbe71b588ba23dc37e44e19d84ca9e66e),
  (false, 0x2b92550af2b8fbd30471a696a29560c30ebe73b8bb170a414d5e573a0cde1ad3),
  (true, 0x36d16d7dbc13fbf4e1dc874196a6a1eab329e159295d0510e1582c2f0f18781),
  (false, 0x3c68d09b2798e4e2c0440a9a96c2e3b0a34ec6cfbf62d1f09fd3f03e5d106d5e),
  (true, 0x37a274f6be371613ad19723b128c8b9aa6f3fd2628c73c38ebde98c82c925779),
  (false, 0x9b65b877844ee210c5268c0900f3e2bfbd0866b6429689e0dc83dc397238b77),
  (false, 0xf40ebef0c022d50e18c2243652680c7a3b7517b4193b56b55cdca272cbe461c),
  (true, 0x2ec62c286fd94c137c56fa450c3d4ca315a4cc820b9e66fbf3f56847e7d83c5e),
  (false, 0xdffeaee70a33e7b5dc29114d1c8aaeb8d7275c7fbdcae90f5e5d2ff93eb5549),
  (false, 0x1969f53f976a1939638bafc544d50bcb682982968cf6ff500c170645e5d7f42b),
  (true, 0x319ae52bf4d22c31172cea086d105d48ec32e3b4c40b7c54045ca2b55103928a),
  (false, 0xae08feb35c8a517d05aff9ff5d42c8f7d7d61ac7747be97fd4ff44a4fab87db),
  (true, 0x368b4d151faa25db2e28eeaacbb5ab1435574418093e8986c615edd4fe1414d2),
  (false, 0x2de6b50ed5f5ca729e42591a6698aad7c7dd6332075f8f4058f93fc577eb37fb),
  (false, 0x3a15502aa8709e696d1e1582a09f170df0d1c85e0d16e58a7ef79f33f4d6335a),
  (true, 0x6da9b5610bbb34134a02654ddc4031aa81913dc35d702cdb2d338d20e914aa1),
  (false, 0x150833641f6fe01c76a6d12444cdb3e7de0cfebbb353d3d100d276a3e60db3d3),
  (false, 0x2bca0dcad321b7cb45e2e673e2301cb7e19874cbb34cb635f4ee65b8aeb72a1b),
  (false, 0x1068b6a8173dc9a53b9e5a200163dc8a4b2ebaf3307f815fb4b7b8c81d9e6e2),
  (false, 0x2a32dbe2a8640230d83e2b0ab0bc81a09d569f264c3f0b8287ec937ff4425473),
  (false, 0x36b490758b4f8b1d46688df6a2999a93cfcf7d36922ba76e154184d536bbf89b),
  (false, 0x1fc91682b3129e0a2f5dda32467e73b3e0137245fdad9a4f8fd8460cc34153c1),
  (true, 0x12c40a01f485cae7e1b824cc45c96ef9ce3a17e15db1c4c953e369539f4b9c67),
  (false, 0x282bd57780ddc12a0be023ce4f3fc359f3a3d941b7c23be34ded743a63bce9ae),
  (true, 0x3453951761ca640fec72cc21a81c61642aadd9414e51d37428dcec5603da5b14),
  (false, 0x25000ef4d31a29018d7df3d0ed7fa2bccbbbb94b1bcf323f6b06cc78274e4e9e),
  (true, 0x3c32c1880f9782534be1285366d078976ea147642c279300af2de284d13a3b86),
  (false, 0x33fa23f92de1e2b6785b549a764e22435ae9c632a978fbe775f088b37fa7649f),
  (true, 0x398872ba10b99c0c00f661203609dc6b12214fe9bd0e19f814eaebe9b70bc02),
  (false, 0x298371a83a2aec6cedd0f0546d014f5217a9d0843a433ef33dea6fd370baff2e),
  (true, 0x16338676a16d72b560cb25c01d2f5286b858bde1bb3290ed4b1f52e10943fd39),
  (false, 0x32ee71a356be7038cce39a9604cbd4201db7d6b5e94b7aadbafc6702ed99f06f),
  (true, 0x368d89770e8117ed4abd701c0285505af583585156bb1734727229cd2417738e),
  (false, 0x1085a858d9cf084e5168b88659936dea5b6a581b193ffcc5eae793b9b6a698a0),
  (true, 0x4ca7eab021e42361dbf769387f930919220c718bb11fa92c3d87037188b47a7),
  (false, 0x1b99c58373ce7a3a8a0a0c51d14ee7f742d42d7ee411559412c56467f05ada23),
  (false, 0x5974788c52b36d45ac7f2b519a674d3468c7876c380ffb5b1a14ed8a5f34026),
  (true, 0x153bf7b64eaaa63f6ecd5a73525803121cfe3c0db793b4291d7c17573c97c849),
  (false, 0x1a1fea3b59f9c46517928f80a48dd97ec5c5fa07fe2250c855d6babcef41feb),
  (true, 0x225676463447c93667cbcf74697cd5f347c86c57ee8c206f459efa1ebf9e61a9),
  (false, 0x2f75c9318c47ccd5b64c229f27662282669d57fb2eef07c8255dba6a59f3dd2f),
  (false, 0x1f7af859ee4a8dc214ed65a7bac00a95727367883e66d3734400e3318b895bef),
  (true, 0xd6ad4f8ab302fa81e441f7f0f0c561c71b77a8ed9ea96eb3a15ebd1b0cebc9b),
  (false, 0x17f7032bae118281da93082c12bdb89524a41c61eea0b8412156d476ca0df945),
  (false, 0x62d189344d8940f8e2fc21f5ec0c1a16b446144135789a33eb15add18014a22),
  (true, 0x39570e72e308c3d7186665361c846402c58babb707d5aaa22977968fb6911abd),
  (false, 0x1ddbb775c4a2a426af83a7b718bb9ea50f36dbf7ab649651172736bbda503406),
  (false, 0x374fa5d76e7cf961db7fc42072f03722f6a26510c0d904d4899fdb958d8a7a13),
  (false, 0x1ff671129540965f7b91aa863545a46d185a8fcfc3561963d511794c6ba8b7f3),
  (false, 0x1caa23faea26f8697aa3b86a4fc0f05120c232cff5c4080807b9a49d4b9e80ee),
  (true, 0x3cbfbf3915d9974646a2027bbbed5bd0aca790278dce64f744861db96ea43315),
  (false, 0x29c2190995b1672a3f698712532bc36e57e078d021bd41b4ca04180212854039),
  (true, 0xb77011455c1a8b01824bbe7789f6a78eabd828b00174ddf49196408844226e),
  (false, 0x3f185e6e43f1f2e9afe73419b561f620e38e96902dc7f350b85adee66e4b36dc),
  (false, 0x38cd4f142985a3aaadb20330c2ed89bb37e78e9146218e589ea981f4847f5f81),
  (false, 0x1fa24876bab95e76ee82e0a6b254cf0de741146e37ad9a660b488514ee992d77),
  (true, 0x3ec5a974745c86115e381c00b052c175f35f1035ccc95ec2dc747ed13da9f906),
  (false, 0x1afda58f092e631a7b8c2265a6f275e31e88595998af071f862546b68fdea107),
  (true, 0x7cc285770c22074782c7bb395798aaf8e529a7eade17e49997d82f635601c3e),
  (false, 0x262d771e1385e35abc6b3f098db75cc37a3fa8188af6c6cde4fa387d09d67de5),
  (true, 0x2d181e3dc257df9c6ed075ca1f15e5881df6b97ce4c55229454b74f65921c434),
  (false, 0xa54980136b0dcb7a842e375e8b93cfab372068d4ff4329eebdde88f42b273ba),
  (true, 0xfa23f9304aef3dfe7506675ab115ef1a4d19ede7f7215cead90585fd6dafdd5),
  (false, 0x3ca1a96b21d3b7b51394bb3c0c10fb2ef4c581e975b5e815e8f7ece4d14a660),
  (true, 0x1e0eb2a9d722009077d2167bb7e5b8ee5282b28ad0b1266c595930cbda8ecf2f),
  (false, 0x1d3e24680ed9aa80b67b7e75c9524c9fb3aaa0eabf01a2c7b22a237b6c7b950c),
  (false, 0x1930aba598cd1b7e748dbe5ad4654ae72d496a37a41854bb14a62dae6ce1005f),
  (true, 0x1e30f7bd82785fd0400f7646d41f4cec904d3e86f3f22e6b4bfab1c356de55b1),
  (false, 0x608647966710a147981249b92596d18c62cd67dfe71f98a6560a058a548b67a),
  (false, 0x35c93092c44b4e2d007e21288a924d38ddef23850d0abcafbb355d4c7ce9b9ac),
  (true, 0x3d6babad7f2d3691d3ab282035fb2017d119c91fd278e8fa442d6d2d70ecdd01),
  (false, 0x3050b351e8909f0f60e7504423e7df02cf8d039b887ab27eb541745a73837fe7),
  (false, 0x22ac3757c14704253b560fa05bb59fe576a2d5a84c60bbe40eaaf444b7799b39),
  (false, 0x38ebe602e6669498ab46ef6da8a715eff763f15bd5746edd72a1bd800e1b8b3a),
  (false, 0x30714bebcbb194c10e3ed83b0a5de280791c0f1145d267997f2c930c860c2f42),
  (true, 0xb074ece1ba30166da9250c8d396e28153dce3649dd7eaa19e5238c0218d7f45),
  (false, 0x66fea5e67a1d26f0ed587fd1c139f0fc492dc00148b0df5de990459f9a30789),
  (true, 0x2142781fbedb4c0fcfebb45c523228e87c27b47238cb2c435132618a27b9d56f),
  (false, 0x1f0d597a0b7535942f1821c22bbc02f3859ddca1873f99c08fa1e28ded5648ab),
  (true, 0x3e694c19bace84e2f84c5a40da6e3537e10199aaca49fa840b45aab511c0abbf),
  (false, 0xd5345e2a364f21ac1db00d2ea8b6bb80af7184067bc63e80d39de3f89f8b98a),
  (true, 0x9c1228c9141710a5045f70b46c84f5ba23b07fc8c717667183e5f9b51cd239f),
  (false, 0x26fc340736ca279ca357f5081666559ccbdb65503620e61e4eeaaef68896187c),
  (true, 0x34a9f633e7a4765f8a123bc29ce2e0209f7863c3b4d24938ca6c76c2d1176f86),
  (false, 0x11ac60769d818ce9ba3357cdbc6e35ebefa71c9f43911db984eab7be9a0591bc),
  (false, 0xfd04329bfde2d74d59f40bb46fffdc29d1c936dc0ea9518055b6cdab0cb32db),
  (false, 0x274bc79165122924d26ae9d95819aecf30114f86d3f72b6bee4ad09a5456f1a4),
  (false, 0x223e639b4b797f39eb78b40116cb435df0155ae12c0f496c36013d8d2a0f2d99),
  (false, 0x1db51f66dfa2666ba1232cae16b326047bba445e6cb0a53766dbfbb4add706b2),
  (false, 0x370c776cffa4a1c8d39eb572894a6a4b3798c2d6b2ab5a65f75219b8757e3c0),
  (false, 0x7b285012bf95b56f7c310d79b78e2d75c36d75bdee021ed5f54816908203339),
  (false, 0x349aaf0a28f88e257a6c54376cf712ba28c6fe31af7d512adbf895bcebc13c8f),
  (false, 0x20115a62e787e844901f5d24b2ce7582f2690d59683dd9b09f59142a0c02f6b7),
  (true, 0x3f8eb4456499fcb80c91bf04b0daa04891d972c6ab8bfe542c17f50072be2285),
  (false, 0x2dd55adadf2dce62207268149347dadfbde6347f5b985e606d6c417d9b4e0db8),
  (true, 0x4e092325e1cb10eef78be3360bc2a6040a241a9a907e7c908c79d76877fe113),
  (false, 0x1c4fb3a781ce9953dce1ef7fa618bb6b963bde0e26986d60283114fe7858007d),
  (false, 0x12de2fc22e7d76c421de9f4a157c861c9a22c62c86abdb463cd86fcc4a2d8e26),
  (false, 0x1659a598d2aebbdd53a4797c61d9e605a226deae1fe8d80403b770145cdb7316),
  (true, 0x1a293433c32d199eb1d3a5201d92f95f5d2aa0b11e148359075fcf6612d14b02),
  (false, 0x2e0dddc9851945b36a450e8d990b893cc30326bc7e04c91b6822e9a470ebbcdc),
  (true, 0x2e254d4a3f3316884bec9137cec1054fa78405f0fc645025c54f758ceb1fdbd9),
  (false, 0x78b3731eb4ac3a846a2fe5acb9b0e0ab98f7a350807712a99dcd3aa3cb09047),
  (true, 0x23a12f49df2f652c2053ad024bf0fd827a352fd2dea777db764358919cfd238d),
  (false, 0x64aa729931c332ee2126700019f12bba29ba6dd129768ef28f493b8f66cab4f),
  (false, 0x22efa60f2bdf152e90f5778050a5ce08675e697cbafec41544f1fee5a3247a35),
  (true, 0x22abaa21953b008093d93dffc08ea9801989b158604b7a40d9af3d812fd75b81),
  (false, 0x3cf786cd891cc76766017e7ff0ca6c45564b9445d5939b850a04555a69c65478),
  (false, 0x1e9eb05faa25c0778b06444671d4daaa62d94bb8ff9abf26cc105259f69f5796),
  (true, 0x2e0e03acafa192abbc1cb879e1d27224bd8f115761fd586d10b3a35d18dbc31e),
  (false, 0x12d8f553f7d09e7d9ca4788cdf5648feef8df78abf5e630f9c31bd219d8bb72),
  (true, 0xde19b103b968c9ee09bce64f981005825de7930d9e0fb3e7037ffe8bd9f93d8),
  (false, 0x1a3ef9e0ed417dafc5dde4bcde4f7c0b06c27c3e9cd17c4ad0e47b1ad18443a8),
  (true, 0x1d9099aff74d4812213340a3d050f7250df7d51ae544e867d131f41e0de96062),
  (false, 0x29c34d8a1ac2dc35ee9fb5a5948b11a18384974aed013d88b6deca6157565d5e),
  (true, 0x2f1411df67ec9f428e0ab8f3e2bce0965f5096d9ddfc9fc7bd6a8cba162914b6),
  (false, 0x3e7497a0c25e39568d5404fc88be2876970d7aa7fc94a4d6df6391c73da9e4e),
  (false, 0x28f75ca70cc8a7985fc0cc7b5cdad599c00a1fabace92d4b8adf787192d05877),
  (false, 0x94e367682a8adc10f47d278173bfb55761ff14249d55ce826b62ea4ff3b82d5),
  (true, 0xb7dbc339dc4340a7f7caae08294362253d6d2f40b5472dee163515db5358505),
  (false, 0x2ec49199f88fc1ceda0fb5de55094c261f4be17154dbd8093f1f61f498dde75f),
  (false, 0x3c6926eb0f7b9d59a79de507bb388ea48b7349b2afada2a2d8ffb34858b37815),
  (true, 0x17a9f6b447add0745c23535e3f5ae88e303ab06fdda5011d6da6c545e7c17125),
  (false, 0x75b0f71474aabf01c07b2b4de447339f4466632f3e95dfb4924af1b09780c59),
  (false, 0x3569db9e55bc2f6f3d3d1cd841bbb1a0ce469755bab85ca34915d42974a7c394),
  (true, 0x2c6d1d5a198848e3e8dec10bf974ad00ab5646958728eb3be6ecd29b4479b796),
  (false, 0x24b7d2777a5fd0028352ce56c19424ff375239d5698d258c88563f3a042c24f9),
  (false, 0x2d58e265419c2ed3756399d39e71b5be742228901a67c4b48f9acbe6e1bfeb23),
  (true, 0x10c85639f3e5b43e7159e9e8d87d1646fd3f31bab56d10e7087e6e14fb0e221b),
  (false, 0x141e4e588cdcfaa83596f7b2234a2b888fe7138f42ee0d658d1f957dd312dfee),
  (false, 0x3aff9af6ac4fdc7f8419d038148db745795b5d5a9890cefaa4170d745e32edcd),
  (true, 0xc9453548826995f93d49ce78341f38a1f510a515f158e1be0084b8936ddbe31),
  (false, 0x3c5a61d51ecf6b84fa6f842864847c62b0bd33d4042d7392f0b0a64bd6a58d9e),
  (false, 0x304bbeefd04760da765610053c421c21fca6b74b711e97d5052ddbeab9e46fd1),
  (true, 0x2b71089143daf3633284e045dbfa560f263a327be3bf90398a88ce7d1dbd1561),
  (false, 0xddaa6a38f96eff0ba165f895fe976aa8cb0ffe810320df857860b06ea3661eb),
  (false, 0x3d304e48f282fe2863320c13181636fdffac3f559528505ed0caf22ff9742841),
  (false, 0x55c2870a063b8ac5cb331e21b1a0433e5d76895327161ed83882c216562b7a8),
  (true, 0x48164c0136213dc66b294bfe064304f0878df9458c7452d692193b6840ba9d8),
  (false, 0x379b313dcdd5b90e17fbb58c44aa438a11eb3c4f20c06ef2c38e28212bb0fc42),
  (true, 0x2a4df0197ea8d8e458d8d2bed2638455d92ce07fdbe3a6b2b14025239d516fa3),
  (false, 0x1af97bb644a02b9c44beb78161b005e9961ba2703e59dd65b766c414fdb29ecf),
  (true, 0x2bb85c8145226e3dcfee5cc8d9e8f7777a317c3ea5a95994b9c06869aeba23fd),
  (false, 0x29728a2edeeaebd302137d189ae69150694da2fec368372090ff8f1b00c6a7dc),
  (false, 0x2d9113fa2c8624685a29c9c168d0861624928e5ab1cb5639ff723786b75edc2f),
  (true, 0x26ff50ddb7aebdd1830cf3bfff52ceaaf6d41619f207917337c8fd701fc95595),
  (false, 0x229d7a7b0e7cc38f7193c85fb6ebd5304f66276295420c3ac6b2d2ac5053ec9a),
  (false, 0x15fa9822f15108e6544fdcfa00d3131f869e05d7ac91f94aa786aa087a76e81a),
  (false, 0x1272a27aa8c7cbb15f1173e4a741c5ae87eb45d499d8ce85625b812539ebc15),
  (true, 0x3e34d8909374a9b86e41ef21a234f51412459c8a7c737c8bf5c989edf6da781f),
  (false, 0x14551075601a718660497f68c844baffb37dd6dc658500cc5d2532cc1fa660b4),
  (false, 0x11a260eb99c0f265e529995875e81c23ba237fa27506e1a99228e613b9fb2245),
  (true, 0x4ef39f21977c96f7f333883a837f0920e34922a157aee82651d00577127e13),
  (false, 0x105601c0915dc6643e1cf9887f181da2df4592285817e87ecf5c768a53f286ab),
  (true, 0x272f1e79ac93ea17bd91157fd777fd4ceed9c5a5b6a77c0c815aecdd93d582d2),
  (false, 0x906228b23f20d3f1a8b1c1c24a3132bc6c14b11f223ddd59cad7db3c30bc757),
  (true, 0x3751278faa8fe4292fd2f98139d64fd860e7094dbab5c25c23d59952b351a165),
  (false, 0xd8a8a5b8a45fd2ac65cc9b531068333c26bb0c208942ba0294b50146684ead9),
  (false, 0x2e8e041b9105b3e683749b22931e98baad280686eefc6bae9cf1b852d4d173a0),
  (false, 0x12f8e323e1575db1b49dcb25fa6824c4fd93ce780a5a8b2c6ae46ec2b4a5a7fd),
  (false, 0xf59efb696b01119f6d330ef1926c68a9f88e391d07cdfeadd76905de572bc6b),
  (false, 0x45c86e3b9e0cfd3ec7a4c6ecc8dc661abfd236ab01a461e270dbf0e1b93b3a2),
  (false, 0x14af68bee2a3df868933f94974e52392d498da4dc314726103a436c5fce4afc3),
  (false, 0x22d7f46461a05bda3cd5be19c6c05b6099503205836405347eb13b050f75e8de),
  (true, 0x38b629c19410db2abd4e24d5d3fa284cb11566a43fbb4798eb7523a4ea09974),
  (false, 0x1b7cf62795bd41f19ce2c9523f87daeec0365818f50c40f7c17b89bdca91bd78),
  (false, 0x61d08f0ca9aee35af1be85f5e852dddb147c650036c85870abe79b22af7c989),
  (true, 0x1750e01b658a70a50e1806dda4044d0e0a85589ec963d9c8883fd62ed2852e0b),
  (false, 0x7dfc418f37e4835afdddc83d7fa3914dd1e69e575a4bdd79ea3c7a5aceb147d),
  (false, 0x1d6fd0ad74d30e84e3179bfe860cc43cfa158ee338e8bd0529d3df510aceedb8),
  (false, 0x31049f53aba76971a7fd336229bb96bc2bacb15e72fc9afe33d03056143dcb85),
  (false, 0x222670a578c0861f51c3dcc4d4a37e2957a631d9bc81175b65ccf70a1b683ef7),
  (false, 0x2ab17861ee3f340c91b69792bc81065fbb3bd8f81f3336350851a45fda7ce571),
  (true, 0x2c180aec7f1b41acbd6c0d99000be68380a5a1156631ee4f25903cdd5cfba99b),
  (false, 0x2abfc44740d427e093b8c8eb3b435c80e2072662023d1b1e0aac9507537c5676),
  (false, 0x289cfb82fedc62c32f3317c2cdff5202e03a9722c9049b48989de137fa02e091),
  (true, 0x1795996e4fe5576b736d5b30ae89f1434cfec2fa11f218ecc0782d8d2a42731a),
  (false, 0xf64a1c940a0233d845bd71530c0bb1438ba31066927a0c0a7e25caa348fa79c),
  (false, 0x22909b58389fe4e4bd184989b30d44298053bf60c49a62205d586d2713b6a144),
  (true, 0x1485f29c8a78bec00b9428c6ed258b7dc739df858b7c5f26c013824438ccb6cb),
  (false, 0x21c799a56f4049e486e631faadc80a1e41f867bd041454015d3bb1e353b0e67e),
  (false, 0x3c32dd40affbb49e9c107e442f647b5100359b476389e3fee396f29e10f909d),
  (true, 0x1e0342f35e2ddaf4c20f9a0d5fc196b212ab5c19957040c1b7da8bc6047f9d18),
  (false, 0x25789755e33f0a922ea45c68611af58c8ea64f03d81054ba713b5aeac747622a),
  (false, 0x156d4e3a9ef2e4b803b70f66baedf413745c8526637a5b22918caa8387f81de3),
  (false, 0x3669f10970e794f3f3fe83a2f57ca36e8a6d6df2b0037ff2d87f984a39e730dc),
  (false, 0xd01f3515f80d626aadaf75d0cb72dd4d768a125eceeee389797e7134ed036e5),
  (false, 0x2e0c79060c0bc1e356abe25317e10181b53c942245c145b6d41fdf328eed8469),
  (false, 0x15a6eb710f3a2cc655f3b57948281063c5ff7e81cb9b37b6ec0d5bb70fee780b),
  (true, 0x224c1f8d9bebbcee3d37a0c4ebd7f10b6f10b77cb38b9389e8761212bc69f02d),
  (false, 0x287b518f0e04d76b3927b6d3ac0ff91e656f49f8944f7debeb971ecfe3686e77),
  (true, 0x2ddfd666dc0109bb39340529620f85c7f12d2d8ee88bb49d7bb366e157b42c6a),
  (false, 0x36f674bfd6c629c4939c93c4dc2774c5a0bb8febd9a57b21b48e4f1bf6501087),
  (true, 0x23eaf9fe35998b3993708270aee158f7556aa1984e261ee079ac90bc6bbfa319),
  (false, 0x25df226aa7a7e984711778b374c707252005444b27c504075f52e8d5c6da2b51),
  (false, 0x38234d531505c32a881fdef2839dc967a0e99fb1b5f70487551042ac47995739),
  (false, 0x9eb77edf59848aef7e142e57eacb887c892068dfb4cfea670d77322a37b72a7),
  (true, 0xd7e3c917fab1a15bc3ba5e9863d1dd7d538782d6fafacbd13c1e5d485b0a50c),
  (false, 0x16365f13a61f2fce5fd51f2c3a9c985e6ca4328df4266d421ad8f6939e1d139e),
  (false, 0x1a357c4675295067869af4119bc84aa56716efaeb45d9ab50c493c80b027d236),
  (false, 0x11cf4cc9912221eb5b59f817ff3e4d78a35ceaac1b471381ea334e3f53159733),
  (true, 0x1f4be616cbf1fb1f665f15edbb4621ec3086e80da896f8e78fe4337023b58017),
  (false, 0x26475668f54617cd0ce92a571633bf157fcf3072f031359eaafe54c714e8ff8),
  (true, 0x1b616ce0f92f0967e660ae45cf5c8fe351c2c29ab9b74b90c2eccc712bcca39f),
  (false, 0x19df18b994486d6df34f2f4ad694b6a203548cb008b15cd23ed7aa91296044fe),
  (true, 0x33e5c2ae9ed067f1f1dea4d20b0521302fda4750a69af7d9cd33b6cc4e85391a),
  (false, 0x310c249d4a52167b25710167841cf48ec69b5d089bffecc82aac840917636ed3),
  (true, 0x39e4a99cf004e982941df43d1daa4368eab353c1058adb88caf4ee918ef4d641)]

def vestaOrderChain : List (Bool × ℕ) := [
  (false, 0x3000000000000000000000000000000019b4f2bd072f7ea629353058c0000001),
  (false, 0x35b9caea9866be12d60bfc9343a388225c21941e109ac2d71793b88a26874711),
  (false, 0x1e258cfc25b1ccbe0541dbcf589f8c25a73d13c8236421e3d575f2cbe948386),
  (false, 0x3447adb6a435a1ef409d70b745e4dd8dcf3535192c2b8d47b4e6b05ac26bba4e),
  (false, 0x30647043b105f71a7510160f77baf87dc0ddd6aaaa6ab7e4c0c301fafd0c53cf),
  (false, 0x297ead54b20a4b49bb13bec1459c353796e5274048f9cf7ad2119db5f118f902),
  (false, 0x26b1d6554fed50cc9f1ab0d7d25f4d41ed2be8c6929175e53f4e57fd446ed19a),
  (false, 0x3b8bd0f4c100919ba24d7d2fb9c0dab799870b42e7646c826e764ede1fe4daaa),
  (false, 0x31578427ef56ace1d9ae397ed1693b362956d6938c7b3a8084679fa77d670812),
  (false, 0x289e077d20f72529744f1979d2b78273ccafbce115d962a2cdf2385d2984af1c),
  (false, 0x500eac6b57bb2fa516a9e6df17cd50d1188249b9bdbd620ba401510235d975b),
  (false, 0x2ab2ac0f946314a8c29141e4f3239a8f81e16435f7b8c83de092a00197d9ba4),
  (false, 0x2473c41efe1124c278aa42c66acb043e939633ed87393f27762a4c5625ad8fad),
  (false, 0x3a7eafe83a3b8c3a5b8628e0c967d02a76d9e225baa16c151c0963d726007f21),
  (false, 0x2bca53a333fb2580252f989abcb33234dd39a435d126c3eea15d1e74c5518d93),
  (false, 0x9ede45d3af8c5c89d15605857b3e105d3e69fbccc590ab4c66b72d2849a84ec),
  (false, 0x3b9dfc3604b60effb3a3d7393c55c83cc5bea1edd561858c2ca04d0ad905acc9),
  (false, 0x38aa60a297d4ab231dbeac05f21f6f28424c80a2a4c0734691013bffe276748c),
  (false, 0x709e82aa2b6bbd90fb5a1eedc2b6e6dd0fa7ca9563b61ad8668250b74b1226c),
  (false, 0x2365ce8742c14345bd35bb6ae3b3d790d2f0c276cf661c7ef30c8f1201027a86),
  (false, 0xca1247a7c2eb1e8805e0dd9dfb73d74030511b126689ba292b23a37642e8683),
  (false, 0x3c23507c166585b8b10ce4dccd147fab47cf01a246c131ecf98902f65fcda2a3),
  (false, 0x15700287a5b49dcb1820f2bb9114eaabd1367b8c5e7ae3159a43495e96b6fd3e),
  (false, 0x2a43fb703fcfc0d9565c913996cd3bba16f74bfd512fd86ca7881ca5b8269055),
  (false, 0x30eb041a55dfc486aaa978a449c293786f3518d1b519a37fe27dbf6d00a3af4b),
  (false, 0xf8cdd97c4df8f992f377546b411271385c37432c1b0c11eaa594785bdf1ca84),
  (false, 0x13ff5b545574f82521ded220d19f72bb1f8d39acf327e548ee31e69001844ef3),
  (false, 0x33003bda0b0475fdd2291cc6e33c8c20c2024bf8d510c33b07b038a9561e06c5),
  (false, 0x1ef14b6fb648d7a09ccefccfbd69e21c21aa149b0f23e2d87dcb3424a6af179a),
  (false, 0x338738879ba651770ba28e888cd2f84a8ed635f41054785f4d68534ebb094b0),
  (false, 0x255617cef57edd6b47396c74041cd30458ca073410891b12e0e584d60dc03ca8),
  (false, 0x3e3e4f3d4b2caef6b452028e3928b80175f4ddd824cd4b7a452d0c353a2bc1f9),
  (false, 0x13acf21cad114a13668314af0154dfe1b2b1a910df01ebdd0b689bb8fa63b5c6),
  (false, 0x38983e6a70cac22f32a6a2138a0ead419a0f386ae6934cc1cdf89d90507cdc37),
  (false, 0x3addaa7ccabacf67e69dba43c44ead0d9ce4ab0552c86c37b19fe9fd1c6914eb),
  (false, 0x4b369042831ec4aa3c9ecbd5a1f7b9c7f5175fd3fef822a48c9f5a788086655),
  (false, 0x194d9825933d2196f7b940c3ef84209f56f064e2090d2597023b35b74fca8ef5),
  (false, 0x3183bb7ce3e13c56fcc1cc8cd394c0cb77054df84f7d071ca916db190c8f32c),
  (false, 0x3e17cc6e596fa088fefb3106123bb9e3e21bc4b974ad3a8ef96e9f634c3fb21c),
  (false, 0x2abfa6d0ac267087a630a88a012bec09cc85332f8c5f98be2d1fd11af53b9979),
  (false, 0x2c392d9a80a0c073c8b983b00bf82d3089ad4cd5df9675ef4367ac51859e7776),
  (false, 0x2f815b2839f84d127c41c6c4904601920f99cea1c31ec342b0029f1af4441e6a),
  (false, 0x33176bd59cea01de180337f305f412cc80095b0eb75c2e1bb17421cd0982d444),
  (false, 0x2f3813e2542f69f1f00cfe7aecbbc54396c90597a422e686cd45c3dd10b87287),
  (false, 0x11bd9ebaaa45c768d729991557d5949052bc46bc1001f085983dd8154b250319),
  (false, 0x118a400cb81e87d67e6c6d05ef0aedd3fd6d52506c3313168fd79fe2bf3fb1f9),
  (false, 0x384424818510938fcc334141031f111f2aad0262936140531753168f34eccdf5),
  (false, 0x16b393a6ccdd18eee87a64bbf76cb67ab6cf0117b5f1b95cb55d6f041060623a),
  (false, 0xcc8d9d718698f490deb4467d70eaa91757d13817f9e859c251c2119b4f6807),
  (false, 0x33eb23eacd518d90e3e8e5c93cdcc4d1b11a6034c408a1e848ba263481a228c2),
  (false, 0x3f7371d3de175ae0c9c66c63aec6001327ad06c536936a96ecd67bf946efa800),
  (false, 0x1017c5ace8c74ff23c8c8352b615ca0ae545f5d9ec31f21b5346f98ed887672e),
  (false, 0x3cfd18793e311ecebb55bed6e180de82e3f058e5fb942c7f40b17a96fc5f8e4f),
  (false, 0x346acf09b003b758156b11b011082458f7c24553f8a244c6a73ffe1c1099fc74),
  (false, 0xcf8bed40c274c4ae1c5947e6507acb2d4b32d207b886caee4b2dff298c9b81b),
  (false, 0x39eb6aded9b3ea3f1a43b9c67f9bed198cbdf8ad42d36a53c2ed5d69bdc7c271),
  (false, 0x109520ae97edb7e277349b562cdcbfbba72eba58ae78eb043be33683268e09be),
  (false, 0x1f115ceed37a088f33cab4ff30006f275ed26e68fd39d145e639ba06f386c4cc),
  (false, 0x242463c83102288e9c40f855069a40bfe7231b5e5f62eac106bb22b585be8914),
  (false, 0x6d0ff0f147041935aaa587da4fb2ff0e6d79f6ce6f0907c342758b83a9f9262),
  (false, 0x18f4533edf1b5d9ad56181454c02dbb9947e21e57b97dbe5758c7781a359f1d8),
  (false, 0x2acda31a154e41c9f6da19322b511bb67463c94c75c11e900d52f5d1e040dadf),
  (false, 0x38739ca02f620ea7a02c68eea8e9079537e8d464397d2198346c938004fcfbd),
  (false, 0x1caca982e5963e1065492ace4350852387b6873cc18f1b842e6a5ca94115353d),
  (false, 0xf3e56cabdf337ca2adfe98f83c7d6c24e52d9ef6a6536df3cd0418e53c4a798),
  (false, 0x24337e1481a419933a45d9034fe2a884ea8eba0a584a1576f574c6dee52d6e1d),
  (false, 0x2c09f5aa30f4379bcf0918be1c28c7d9444148898f3c85eeebeea59607313940),
  (false, 0x3d449b0e3714ebf675e3b941330eeed1befab5e7f4cc3c517868192e2b784b7e),
  (false, 0x3ce69775bc7f0ec75b473b7e9e37e5a4fde6e172fe1eb482f36fab0038ccab38),
  (false, 0x3e1e3dde5c1608656d2b03fbfad102c2c5fae3b392cbc95c30c4265ef10d3649),
  (false, 0x1cb381ea6380b032f77442ea21e1ac6eeff6ae115a8c8d3e8137c7c472433e2c),
  (false, 0x2d33c02e27039d6252ebeeaf6e93f3e796f24aac4c9329dd2e96ac6a5b607c7a),
  (false, 0x2af0ed0f808386d5116f0e4bdceb8d3ed206c924c5c4252346816a4dc63696f4),
  (false, 0x23e5661f0aa5569c8a803ede542d61da0d721593e3dd4cbfc15daa8ce6e3f863),
  (false, 0x29c5fe9f8c99b04e929103b5c87a7790bc39e5851527290058c376353aea2187),
  (false, 0x1d534db00fd096e86319134b445c2d69e001a8eda166b030d46a018d4d524a09),
  (false, 0x328cc2c70077b16ab4c123e5e69e169d2c94c07f45146bc397042a9eb0c3d30a),
  (false, 0xc39c719dc561325a9676ab9ce7918648a75c670525e660ff438648e3a041abf),
  (false, 0xaa59c87ada83111849b10a4a1c33ac939b810dc8e2073fe80ac5b4c0f91d6a4),
  (false, 0x38fb1b21c4378e5956d93425af23eb28f9766ced91e0c1905d2bb6888d95398c),
  (false, 0x1743d3d9748162b8c62eb269e29cde155b9a1763ec5b8e75eaab4bfd3e248a77),
  (false, 0x3dc297f0849010de35017733f73b78c9486720f4308ef0d35068282a5c701252),
  (false, 0x5a3b20d2fbea60e5fedc42c7dda158246a7065092ff818e5f8696279b350887),
  (false, 0x94bcc45921a08c3d570045156a2517658638b6287f5d26ceeb70b83cd092893),
  (false, 0x1a62422ae3e06f8439399c0102e6d6bf64e4d38f6916fac2d85b6c1c003c9ead),
  (false, 0x2ca8bb213d409d20b311db7a03e7ce08b0105a82a0eafcd15319b0661ea0b4b0),
  (false, 0x1eba5df292c5b92ed63fa1f1f6c8c68f6b83e7bb1311dd2b3352fa15c85730f),
  (false, 0xf03513dcf416190740f1d626e4adf8c21ae7118643761d791c3b6b17a3a9649),
  (false, 0x3370e078060366a6e42e47babadca7be4c2131fa8c1b76564863c67e7fd7ddb0),
  (false, 0x111a2ae8ae54cefdbbefc199cfb3c41e8ae87a30aabd2961941b7e7efd7cda7f),
  (false, 0x3a464c09b550df5064e0109a847b637b8c4e9f57896482be74e5892ba7713661),
  (false, 0xc043c19bbe3a66482349986f265466f3359cbde9461ce68583210e8979170fc),
  (false, 0x3166712166b6f2ca4938cb19f78010968ba4ee08f0852748c6069e30d6ea8382),
  (false, 0x9cd5f43dc11758cb640079ece8da4d957073f99a8e3f93bf1e407ef5daf9896),
  (false, 0x2cdd83b585d40bd5f1492ae0370431a5fae64098b01ea2ba1828ebfc2914fd63),
  (false, 0x34fa7ffc943f020abee67edca90a8fbde8be9cdcf3825110497f1b3bf26ba475),
  (false, 0x32783939eee78e74b0378b06e26aef403eb7995c47c7fc9a95bbcb8539c92174),
  (false, 0x1ee51e28540d8d307c02f63efc43514e6b185ec34eca16d1351361fb46028312),
  (false, 0x28eb1b60fb9ec15e03685d5017cd479024c8ee65127ec0718244033baf66ee7d),
  (false, 0x24df8a465bd5baa90b8b3b28ba34472e9480b0b604081d129404ed0ee702d759),
  (false, 0x2e0799d304f2c4f5f8d402256069e5b1a34e55a0af1a92b2e9d03e857f285eda),
  (false, 0x2c861a49f2eed20fd1456e8af2ddf8297898aadfa0d8fc815cf06722220065aa),
  (false, 0x1eff8317a63ac5979b75d2e64b256d4e33dd9fb829f41eb4c25c817fea54fadd),
  (false, 0x7015172094286387d1e3b3e26e9510f9d4b95a6276f4fcd645ce70935d6799c),
  (false, 0x2969a1c96b26447ce63cad1d8ee7e80c2b35ad975637d47da4c66da244e857ad),
  (false, 0x9ccdbe32d3b371ff50bdfcaa9ebf2e2be0cbd9c3b842ba993e71de05b03aa98),
  (false, 0x39d5ad3b3f06732bf62670604f6085672ca5d79166d3f7531c694d53a2219cee),
  (false, 0x11ac38522e7a997d513aa5ef1e2efaa4cf044b1b4a4f16cc8eed4344b4749c59),
  (false, 0x11434b0885ba5408bedce8e475dcf30e40f22cbd01d36a3ce78f6cdec6ee0da),
  (false, 0x1b3a84a0cd0e074752150205de7f7795bbb6f581d1b13809e1e8bc7a136fe4d8),
  (false, 0x2a3cd4d29b0840a997b6db304be8e723ce21c2fe517f31cb13aca6de1b9a1812),
  (false, 0x2cd76b3217ee0b53d1695c84a8184dcff65cab48e5271affbfafc94bb736028f),
  (false, 0x3c7b60b216b08aeca33c5bd2b266dd99a24821b843d2217d150fdd96955804bb),
  (false, 0x3dcc0fbb9e45da3b2828d2e426f2ef0956c278238115b46135304802380fc521),
  (false, 0x30f6e2496b5c393571be16e17bccfa82046109c8411cc3cbe7c927b5fdf1b894),
  (false, 0x11b9f94f2f89e7ddea2638ce75332ca0b896ad8593db932f03b6cb2772e3830c),
  (false, 0x228bbeb19358d03952efd9aaf1210cf24a339a8a47e14cb728c4490db18d8082),
  (false, 0x2cae989b8d4e5a68334c937ad46a0dbe4af6bd73f4e2b238cecde4f259b549bb),
  (false, 0x1c7e9b86cdfcbe6bdb6a92bc94cc9f594c1db6ba5591c67cc512e1334ab0f8b0),
  (false, 0x3d820a219273d2308ebfd302c5326786a772de014c42c9d6e0613926918554cf),
  (false, 0x16b9e69591cae222ad5d329eab9bf67f68e5afba356b5bcbe231609e68043162),
  (false, 0xdcfe00a9b4306d79cbccab5f309173d9c95d084719e00755f9870706bbd2c36),
  (false, 0x21a342013f42324884d99be0fcf7561c22355b65d059e41ed22da80926d1adc9),
  (false, 0x2751de2562757446a662bdcac27f02cac539337152fa5c154f2d434c3b1b5cb8),
  (false, 0x2949e4054077d4711109a0f1d18fea0451f4ed98a162b04b40c5b8e73e17dfc9),
  (false, 0x37919d5604ec8e7f2bf2aabb1f41fedbfa575402a6b26f8ef5b3b21ffcc69c11),
  (false, 0xd6615e6730d2a3fc0de2d3054c1dc96faf8e1255d337c929423d7d3cb17c44c),
  (false, 0x31622079b235864852e8017cd4377f3420fa86c30a04c151332efa5ed218746b),
  (false, 0x3d5a5c996155ffd23980f9f474e17b3421d600a73b7c1d408cdc71ff26a1635a),
  (true, 0x10eb3c45721a17881afed6854a2ae5baffa015953dff5a28bcc6a1d99fac0998),
  (false, 0x17da9ce2062ca1138f7486a964b352d496537133168f7866f2e901a6cea43ec0),
  (false, 0x15b06069a601466696133dd6d07aa87a814e8375da328362ca8e1cd5d3fa38db),
  (false, 0x22eac448537bf837fb3c48c8f557e2a06d3de8f6e3d68446679baa2c3de50801),
  (false, 0x119513add00bc4a557b9ce40b0ae1f5047203f444afb5369ebefb039fc5dceb4),
  (true, 0x4ef0a5c3c7d6a724763c88cd1ac1d43f7b38c3f14d509bb77524c938362170f),
  (false, 0x266abcb7958496c669f90d98b2c7e7d5a4d59eea7966f9ae9568ff7b95c53e5),
  (false, 0x11fde38de2394243460f76527ad3554ac046e5223fecc9a566017a478aa85bf5),
  (false, 0x15448801d20b8d9c764475bad28d6358a28dcfc5210ad3ee91df02235dcec3de),
  (true, 0x30163da2a015dadcd49d74dd8e63d948b8c6672355250d5138b4fb8d30ca35f2),
  (false, 0x3071d27b4408c8a88d26f0b418f8402bd931a5dac21cd0a57879dc3fa7b69c21),
  (false, 0xcd5b5abdad8a03e98bd8a6aa9f7875257ea1bbe81d62f57f46d24972f7a4424),
  (false, 0x1118ca1940179068b99ba2735f986cbd700bfbdd3e23a203dba11286954cc27f),
  (false, 0xa14b6ea5f35c1e85aa70d181ba5577959ba8bbf662cb17c78f6d1207fdbf724),
  (true, 0x22274b7022bfed25918541fe36c1fed787ba68d2dd4b19f85562be29d34fe0d8),
  (false, 0xfcecec8b9d83596c2cf59a810ff67a66b61afc5b9c7b7c8066d63eae2e2a46),
  (true, 0x2e565d050a6afda32592241ac3287dc40bec730ac15c1e5d6fe9284a02be4b56),
  (false, 0x15943254b911c128741d155540b07b938275f30d085347aa912f4abb2bc5db81),
  (false, 0x242b278855b53aa86073668db257b29f2aab460fdcc434090df8cf176515f710),
  (true, 0x13c9df507b2cb1a20278e2fcd2df94618ba87db925e18faa306d3208239a2207),
  (false, 0x29de74bdd561821b20b39875e4856b615caae65cfe15170a8c78f69f4485c716),
  (false, 0x192891df8723a1e13582be77e268fc20ff1850708010f86c4acd1a816ca94001),
  (false, 0x349b799c5b507e168b56ec0535396d57134ca6109db0610233d4a86f8e379ad1),
  (true, 0x2d66dc4f45f6634ba9b526426794ce259eca5fe767bcceddb8cfab584255f913),
  (false, 0x28df3396ed214de8a1af644a7027ba069058522301e55a93afb81e889d291fc5),
  (true, 0x1e0ebc5bed4da36682408f4d9f24acebdfade3297c3d89154a72653f2017e3ac),
  (false, 0x2c42468e90985c06acbfaf73c16a08534ae0f8cbec24ee2984b5ccb138cbe7f1),
  (false, 0x2df6d4867e578c768bcac0484f5f9551c57f678536cbf8aa827e9e4c20bf3ffa),
  (false, 0xca6d27826a31353bc44132ab66640880213a2b77dc3692a382836c2c079795e),
  (false, 0x30bfcc1060e3da47970322617567c7075a7f04c5e0972bbb62a91cffbbd2f1b6),
  (true, 0x269d645f9a25e0715da7cc78ff8bbfb97fda982043599891af5b535705213959),
  (false, 0x3c1ea0a03f65c59f4e82d048d6c3f3bfbd8c88925110f0880e7096fa341cd173),
  (true, 0xf5e17414e11a3de8d2be4f047563f94335660ebf9def0f72fcc76924fa734e5),
  (false, 0x1d83404cef1294e24d93e3f4720fa250533e1ad18eb6026e4df4e47e5ec77e79),
  (true, 0x257755501a114ba258fb6d0301e6966b52377bc1e63bd464100cb42f503c8640),
  (false, 0x99695c2dc36e4fc59a0edfb568336b392dc08ff43f13e3991eb9219d14821f9),
  (true, 0xd772b28f5866589390249a933d2189556ee72025c573aa9a6ada895f44cd67e),
  (false, 0x7745dbea75bc762294f3889d428a0b336602c0120ae978393ac9fe94bb41271),
  (true, 0x14d20f8569db2222c719499688d9b9c4a7cc0bea880e148fced3455b6fdaffc5),
  (false, 0x1da3d7eece100fcaba76bc49639185eba45ea4e2f68a6c8c4aa214da1d0c8710),
  (true, 0xf8c4ff3fb93e6c20aca05214a75c229bac0994beb5a7aeb47a207e3d35f6733),
  (false, 0x3278deec2cef7aca5f692b0efbbab4b8d2feb49a11509bf96ecf7a67576374cf),
  (false, 0x7e5813e3599bcdf023689d6341c30a252c0ca0d862479c632aeb7e3b9d853b8),
  (false, 0x12b5f4b92dc0c44f9fa07f1d8447b33a8f5ffa705aa16ed520262a68485486b8),
  (false, 0x31475e3c2156b9a2901dd89b33a871bf211026c5a04927cdc80a27b13139a39e),
  (false, 0x329a96fce60e5dfc54594bf8839808fa6de2e86e07d60d863a7dcc83de3fa8b1),
  (false, 0x223118de216eebb9289cd2f142cb6fe74d2a89c32636573e635b8d2bcd4c9794),
  (false, 0x8065871741447c49c9bd4eeef54993542699a2fa28dcd33b6285f5563f6b5),
  (true, 0xd87e54f2028e73b0d13390cbe02c5ff079bd42f08996cc20170f01a266b11b3),
  (false, 0x2eeeaa81b194ecf52b2505c23c1dcb651baf425d1f9eac91e1b11bfc3153cc42),
  (false, 0x29076a27ed765a3197d59d4d722c0152a9ff44dd35a9805a01bb52af86411f47),
  (false, 0xaa7bd650c33d4177bdf3939a615bcd0bfd1aed63adc39ed9145956c066636b4),
  (true, 0x2e56282dc362745735f445c6987bfe9c76dd0b8e3a72c29915a2af3ec86659c4),
  (false, 0x21a0e827842c966f318774d7f15188a0ae32b513fc1f93e0da9982b61720ec67),
  (false, 0x23b206232b490bac56eb16cb21c4f78d91e05ac0ab0b9c1aaa7d3a4ab440f868),
  (true, 0x3d879eda3d2347d7fdb9278e2bbf94820330767e82d253807e7d38bec149799c),
  (false, 0x30ea52c85514ce214155082c8d628626c09cff2978a99549c26169bf18963cbc),
  (false, 0x6ae2a4420ff431aed8eb167e31b507ef75ef93469a1acf316bb161712d40bf0),
  (false, 0x25ebff89f0570840be4b6f039ca071f14ee84e0110719ef09718dbc5997c9d9),
  (true, 0x11b120d1c77874a7efea5b31bc6f6bfcb6b33aa114d408ba5f93c6dd828b5810),
  (false, 0x2505f2f4f1d68c68308fac1571a19ccdeb4235ad65443b988de34720cc7d5197),
  (true, 0x5b72ad5a308d3422690fd593840177dff6a25c9095db3fa69af51c0d108567a),
  (false, 0x1fe92dbe3ee6bc715931fbc39729e6a9597bdd4288b45f365e1c4890ab59c19),
  (false, 0x278e9219f14224798acff6c4984768aee1739e6547f5ba691802502197af5df1),
  (false, 0x3f768b0118897f35b990a3f0687df6289711f01cc9093181a7254213ef2bef8b),
  (true, 0x14705cf5ef27d024a8dca019a3236f8fae5fa7b4b56528a1c34911224154ca09),
  (false, 0x2f3ea2fe8e694412928ffe69f2a1134570126b23f61cc4638dbf9edd936db888),
  (true, 0x2fd3272841366fc8efce0d498e3c31787204186607491ce251ef8288a96359ab),
  (false, 0x36930df820f3074b7710dbde958ec9d075c07699cd9d953e5746a6e8045aff15),
  (true, 0x2a70290c38bd5effca6f5926dfb2d2dc149b2564d7bc6618b8114c62ad1dcf1b),
  (false, 0x30c762212deb85ee6fad55069a1ab224ffeb9b061cd28254cdb757209b1f2c61),
  (true, 0x792021ac3d8d847bd9528fd995333d0abad830811534071fd635b0c50d9d528),
  (false, 0x3f45afd062329a102b4d070d3077b43d5e52f7e36b3d8e487d26858d0151f04d),
  (true, 0x104834bb00977ee533078919b1254a9d4b8cde23b7f304222dfac4cfb5629542),
  (false, 0x3d2fe7ea1c5824026e2ed374d3aca74e1832c213502ee2a408efc8b60bda4973),
  (false, 0xce65a96eb40560559c3895c9d4545686cd1bbdfb35203572a8d175370b05dc0),
  (false, 0x37142e7dd4032a78af659a305acda8f4ad007f407a6d07072f5f738eaef974ce),
  (true, 0x176b6a00c05818e58c054b7d2d449fb4569a9533d6e4f8f2f6a330834bf918eb),
  (false, 0x3cc6dec2cf80a05c4a1125631006f14acb2ed598a2f0a93b28e80e8583b9e85a),
  (false, 0x26d9b20d83027c57b47ee304820b6ff33d618e02d92b5f8aafd30b34cdf03be1),
  (false, 0x1ef5e8d56048328e1acf31ea3acd3189dd90407044f0916f38b5671ca8d4dbde),
  (false, 0x18fe2c59fa1620adb566448c3cea91b3fc2179fe1e81bd731be5e4a2a381c483),
  (true, 0x2c9b7f9305e4f949458052f4f4b99cee0a59f4702824f7a721476b1b1c9116bd),
  (false, 0x4fd5626665afe998c3ed4e98203032754f8348a7d0a57063b98fd0ff0e9f1bb),
  (true, 0x272a75d726f2446cce1f6e256165f6781122621e3f2cbeda7d79b216c3678be6),
  (false, 0x2ded9ca0afe0a4d591a3b962595140e5d1dea6ee9e1789978a43aef9fe270633),
  (false, 0x11b723e9ddc0218af0779ae77d19df848b84e2d76c40d705ce142375905cf833),
  (true, 0x3ef4f39b7bc0301cce41fd6b684671a302331dd1d34b1b60ec860ae06b211104),
  (false, 0xef78d6bda311499007b917c8a87f96dbb695151eedbf2c7e526808628753d96),
  (true, 0x1a27bea422ce071d30957f86c3a085aab8e62c6bd2ce4773e36e978bdd64faba),
  (false, 0xf4426f0e480a3630e99174e9ea3aa699e961997023059a948765e7b95f88609),
  (true, 0x1d556f662d03d6e7b84ed64a55aef833f664384c31c2b5f144d08e4245ad7986),
  (false, 0x20d0f2b8d0b60a8b4a6d5bdfe0ebb5a2d503f9a461cad6c6afadbd5c5aa268d1),
  (false, 0x4e1474b9e616981cd442c0b83920b276954cd7d0695c21e49a42db036db831a),
  (false, 0x3e5eebda5c7365dcc00ee243f7524732397d6c57129c5fa1b2ae140e7edeb0e3),
  (true, 0x2efc5dbb5a525752d1ad38408acfa15832c70974f74284a72c3f9447cd9298bd),
  (false, 0x2978f576783b292c6d6dff0a34c691767079a122bc8a1a89eec7118195c2b843),
  (true, 0x3d27c13ba5952caebd96aa034417426ca6e56c5b6b06c42da9ea98f76f4038a9),
  (false, 0x2a0190c37de6fa98aa730e32014c6b9bb40ea18eb963aca56332dbd14522d1aa),
  (false, 0x71697daeb071c6b82a21406dcc7625eafc230793aa5bab2ce40d45ade636266),
  (false, 0x150534fa1da618483b1ea6ff1c456e4060aae252d51080cea9d2f8f56133b463),
  (true, 0x3eb2fea0088f140baec23482ce29d39a75ad6a9b22106b38757d24b34b396950),
  (false, 0x1478ddfc4cfd8d6d16cf06a524fefe4fadd3fc2d97a63fb94d8a68fad5e34c95),
  (false, 0x32f2dd9b2cae64410f9986688c73a523087b80cde34988af921763d16e9346fb),
  (false, 0x362e1f9818d42adf42f167bdcb8ad452fac0f7a86bf7b936dc03bebcdb59102f),
  (true, 0x2dfb4d3cb049acf678bb92d06260b8c7482d779e954136762ee8e44eb86aad20),
  (false, 0x1135b01dc85aee72d0aa1bd2b6864d8f024fa23f3dc71410e122851f0756b011),
  (false, 0x2ed4b388e1ce0d05d9d938f61141de05a037b853e76252483bddec757cd2e37b),
  (true, 0xcc05d2ea791833e8c66a7fa5b2ea99f3613ba95092360e9ec388eddbf72a139),
  (false, 0x186279a6c2fd9840edb02ba128761665de46c71aff816959fc57e99a27e4eaf0),
  (true, 0x6f0960ccc17bd7389a4eb2fc9b0c3829eafb4d3b5b3f9fd83109176dbf51c67),
  (false, 0x37c36330ec3b1695c9c0b3e24145930cb53d54de4a264f9b3598ca6ad280e37d),
  (false, 0x3a0b9e7f371967e24d3d8a08a9c95939be52c1ff93e1fb94e486163d2acde4ba),
  (true, 0x2ebeddac8adae8511bcc8284b9a2ff26da1316a5f5b46c8bf7529a819605a33a),
  (false, 0xd98905bbe756f9518b1cfc5927c37fc66a78bdec4bdbb303f6a271130f43c08),
  (false, 0xb15583a5699ce72249a2e82370949ecf6eb7b50f76338fbad6638a8326dcd2f),
  (false, 0x8def05b3a17ec8f940f39b2de277d1d99cc4de12820642134c48662391bec5a),
  (true, 0xb3d5048c6bc97992adfa960e982c8764e7e6f18e9e4d27bdcdaeaaa1518ab81),
  (false, 0x2c1443c0f4bc8cf0cc36de429b13fdcc8119060a9541726dcfd1076fbf9cc04a),
  (true, 0x226fcf8b9cc7da929edea953397ed29e5e1db0021beb265304d5db5bb753ee86),
  (false, 0xd9a0b64c3385cea7ae0eaac001ed72c87e5d9f74934951972fed4c606e933ce),
  (false, 0xcfde9cca0708a3528c72fd498e77716fc9c607ad5323b30732847650142fbb2),
  (false, 0x31b801c35b85a0cc68c5159088298045c0746e05f297d1af99cfbb16b5552dc6),
  (false, 0x30af6533f451ca1957e911d0c100e8e1054b00c5359e0438b3769f27bd34358d),
  (false, 0x272fdb8009a9e4ac1e452c12bbf5f67d8bb0057bfdecf5e139efe5f728b807bb),
  (true, 0x10a444810e5af4c394ed4c36bd30ac89f20563a6b48c2fe91549a153405da4f0),
  (false, 0xc51ae791175dd647febd658358b84e8b061dc8e576a218bcc121720b13bc543),
  (true, 0x20466fa9ee677e8721379eac54d61f3e0b0bc16a38aa852574c94cbea14ff9a),
  (false, 0x36c5f25438a0ef14fbd39d429b546249b2b36599db595234e15f9dabf00f8e2),
  (true, 0x3a37deed2df34cefec528285020760b873cc3a256e4abae373dd2a9ec995afc4),
  (false, 0x63471970fcf23bd7040d7ee301ad0511d8a1189c5cec832d007a9de00cee42d),
  (false, 0x208b7851ccbf00d05c77407c3794aab734921b49a30373953f72d46527865cc1),
  (true, 0xd9cbe6f1128150bc4c88dee588653391a76d4f021eb1657945ee4f5196430a9),
  (false, 0x1794fcc0451f99901eee9ffd2d654c3db02967feb81c0536cbfefdadbdff4b6b),
  (true, 0x2f42beef9e2ecf5e7aace51d079c0458a4261f6a42fdb7be9cbd78a6fb807a91),
  (false, 0x15ad2e776c06cbb86b09805e4cafd35eadf95fbced322e14134e26c895bf40f1),
  (false, 0x2e2c36228634a5422e02a24b1abe5f9ffd698c4719c5d3b4d6d783e46770c4da),
  (true, 0x3a7314eb42529b67494fcfd811f7e1ecae7abc229f4f06dd7b2d4b5ae630cc88),
  (false, 0x527d6c89797066525069270dd2cd2a4ee8d486ce0e04e7d02f6ef20a1d74510),
  (false, 0x28cce53ba99e0dcffd853534492a192787ad1c41cd85176c803e98efbe0a7a56),
  (false, 0x2247db3d06e6663f832d9e321dfd6b09f9dcec3ac28a9a3944b7352f8cd5c150),
  (false, 0x1144f1d91216c7529577273981187988b1575d12ee9276a316dfaec1762090dc),
  (false, 0x3992657df2f7c4b273126bd206dc89fd6ff048583551a30208cd38066494f72a),
  (false, 0x8d7ef7160fafbdfe808f24c7a324947e7e11813eb01015f657efd74a445efe1),
  (false, 0x11f0d56aed4ce57d70f0d22fa8bab1e9b9283163ad29eb64d491ecee630956c1),
  (false, 0x9f7aca3c106d97089acf3904c669f31d3081f6d27e444c5b6a8e9bf95337c9d),
  (false, 0x2769c8e8735a0ba520a0a25da6f54c3a3535bb71c8f1616882b5b796a3ecc66c),
  (false, 0x370e91baf1132397cbcb2458ca16a4ed261210cf74600bd07bb7119237c997e),
  (false, 0x269419fd2da60b05a194b28144ee5d075feb12fa450f67fd7f1742355046dc81),
  (false, 0x3801534faed2ae02dd87b702e4494c6d6407b4de8fe8bd23d6005211d9274933),
  (false, 0xb63460658c696937f02f92268f49d6c6f1b0f442660b19cb278699463c488d0),
  (false, 0x1ffb3e66b5c554a3d6bf03cbd6c5776f4e97209703552a693848650fe01e5d50),
  (false, 0x31cfe1c80b15e14c5e1dcee0d3a67cfa006cc5f3092a5438e6db12c62334157d),
  (false, 0x366a6f62a7d084b4ba234bbaf54e254f4e86f125b8feb3aa5c16707039ffdfa8),
  (false, 0x34b85492cda9d3db906553b4cf5a797ba635357951e70be18e5ae7641861da6a),
  (false, 0x31a49f6c490897c81f879692dad7d0d720a267ee5e2bdd7f80045eb3f27dd8df),
  (false, 0x2bd99bb515b3c4d20410b050f5e5f695fa8d13953e320bc00da74904f5689fdc),
  (false, 0x133fb6944bdc516fb07418cb20b4f0a728e59be5de3cb27f259e5df666c33bec),
  (false, 0xb6f726addc14d291e7e71b233b00b8375ed2d92f2ce1a40aecace60e57d4001),
  (false, 0x31116aba4c3c15cb744275c7d2aba80821e9557b534ba5c70b7df2f1a5377984),
  (false, 0x3a64c6c62290e24a4803f0f81a6c4c7ed49bedb92bb8dada93ff79189d34431c),
  (false, 0xa3feaaad9bb653bd410b7198efc21e0aefc0f8ab87309e42f225e2b8cd273de),
  (false, 0x6198ea8fc104579240e1f168be73fe20883cde98f56e6234a4183cae053da4e),
  (false, 0x16a2f021c5ee1ea47d1e12c8b0bbc321cba4f89c7949ea07c22aab71f77a3a33),
  (false, 0x1d580042bdcf0c97f8e66fbc6104f3e4af9ef3c9175bffa617a96579866d8aba),
  (false, 0x163b2e216f0fc16ca4f52d415ba1d7bec3923bcf41fbeb61f9ece8834fc69fd3),
  (false, 0xdb01315c898c9e82b015d3d1ff52fa619a102f76afc2910c1f4592dfa3e580c),
  (false, 0x260c81d931e5249dda93b5d72c29c5b9d67430d2abdf026093cbe70302faa94),
  (false, 0x2cdb63a98d9becd845c3f6a0e54f903b7749dc9c966f96e0f1abd1d6ec5e2a01),
  (false, 0x6fdbe9edaa8e03e9dfa52d24e7061f48b17270a72f133a8b242072ad3303d2c)]

def vestaEndoChain : List (Bool × ℕ) := [
  (false, 0x3000000000000000000000000000000019b4f2bd072f7ea629353058c0000001),
  (false, 0x35b9caea9866be12d60bfc9343a388225c21941e109ac2d71793b88a26874711),
  (false, 0x1e258cfc25b1ccbe0541dbcf589f8c25a73d13c8236421e3d575f2cbe948386),
  (true, 0x2a38b8a350d3501c364ce703e4fbc29c78c7d75a12f4724b10a72fe8a864ca28),
  (false, 0xa600446037c86eac44af7314cc2a5adbf8bc63bee9a13100996379fe3232c6a),
  (false, 0x13554a43882f0e5f70217093e1e74abc7b3f73692fd14166c4dc1ecac0ef1d68),
  (true, 0x2794b7af55631b82ac2db7fe1c4739fdd82b21e4202e7c3072ade99f85a00913),
  (false, 0x35fa9339771f83be0ada5a61ecce28e056dc3165a13074aa8652d341056123d9),
  (true, 0x11db4d569e65d90c46209fcfa4109ea42c5999f97ebaaf52b4ed401d706f9240),
  (false, 0x2f90c5ab290c42d38d3d528f02e1c7a680c937e79c6ced8b3c2cba7a448d9632),
  (false, 0x3e4cfd846fb2a6ebb001ff5b3dc4aed1f30fe1fb4a993d1b7c436a6701abc72f),
  (false, 0x27ba1f6419b0f57f9f885c6d72127a0f203b01b9e473c1f01f69fa500f4b0f07),
  (true, 0xb97d6f3453553e0e01a9585f13aa74a5d2dd297b3967ae289578b80aa507eeb),
  (false, 0x38bfc6f0fa20370c453767da772fec2a50b30ea4657ddaf881b9623423c934ee),
  (true, 0x150e6d81300eaa706e36038dc8b54888d2b2ebc7fe02f19d8e37927954cc4956),
  (false, 0xdc195e5a77eead5709f0633884624405cbdd0ab6a5a7997ed60e3439f323db8),
  (false, 0x1ba912c5e07adc64e5b028b3b7cbd556fe9eaf4c7593f27c5724f4202894ba48),
  (false, 0x3ab814976e31663c084929e0235055deb82e09809a5027e57efdec71ccb7c541),
  (true, 0x92a30b50e692db46760c90d01356a7aef86f94aa8d04eaa6743e65fb35b9b4f),
  (false, 0xb6920763511fdb474e331ab74b1c5f9582779669cce6bc37a8f2317de048144),
  (true, 0x39935e90fbe8c835b5c2be3ca8e30b06edd128b3d4bb7354b6c1b6aab40f13cd),
  (false, 0x2eaa477c8870bb85a00cd2c721b0379c50e8550aff2372fde813023d9262ac4a),
  (false, 0x2945db3cbfcc50030c0ff97a5112d8c02853c49a5eab211bd4ea9265cef00735),
  (false, 0xf24fa2cef9225dcefcd06b70a7a99857b6013721f4b6feebbfda058080bbdc4),
  (true, 0x34c8c44caa3a2f17c23c6e6138553985f9d0cdca1a8e793a7e65b86181f56339),
  (false, 0x299f7633abb9d93e57b3e4c72ac9a9c4c213daf1d121688b92b77f94e10c86f7),
  (false, 0xe26703df4572d15511dd3eac897d1788ba3aac43e6830e155b332da92acf11f),
  (true, 0xe9278f140661ccba532eca418250328ff028b9884f766846377806afddc1d71),
  (false, 0x333264ef12f05c824f721e42f7b9e268edbacd7100a74b443eb2511165df94a6),
  (false, 0x2e2a08d00d9cc310df6b3657cde71e5d14efc5f6178baf7764c56018d2f4d0fe),
  (true, 0x394dc95e8fd4ed3a24369c158a58ce0a35dbd15b03a058165734289cfe8c5724),
  (false, 0x1d04698147a3270283bde43aef6350b88cad5654352072e27da68ca88d403e09),
  (false, 0x3ff9321f4f888a55fc596ef216af02c2b755131ebf4ef5a710337e544f1eff82),
  (false, 0x36adf1642f733111f0185da45cc58716dc4e8615e848e40fea3bc635eb925cd3),
  (false, 0x2d90b4979e7885fe9590694d3891cb00ef4f6bd3425b0431fa7339b89c30873c),
  (false, 0x2c71a3fb669674c33fe9dd2ecafaddc6a609e7a2b62f1e5d5d8c395b05f66bd3),
  (false, 0x35618125b4fcaf10b56ffbc81c0150e7ddf4f6469323c3701fc28f462b5a815),
  (true, 0x2251b5d3944e8b1b27f0119100d075c3420c2fd91ea362011a633f4ab112192a),
  (false, 0x7dea3e26a606ba6eddbe250259e9b18d4eb306850b643077f6c0c51b82af4bd),
  (true, 0x265b8c99489f82d5898f788e5b03546ab21bd63876feafe230a6ddd4d57be4a5),
  (false, 0x1eef9edf40ec013b1f03cb3135d4d8bfa0a6c78ef9089c7a1f81301a9b3bfe11),
  (false, 0x3571e8df8fe19ef693a6c0544f1a4954ab0d414278d4f7cf3fbbbfc69bfba627),
  (true, 0x3d62c85093b172eb8bf7164c6ee8d0c2dacb851e4354d3f7d002414955930810),
  (false, 0x1f3b46c868a632ed7120383718b47f1ad88d792a0907110c48d148a1e97af341),
  (false, 0xc841583322541a2bf35b8eca706fed14ad8609b8a7d5b53dfc9b8fa7f4d932d),
  (false, 0x3ea60a2831b4bf1c02b5a7f676b9fff137180da31d454bc60783d387567d7396),
  (true, 0x54664e0cdc2d592aa5ffc9c08a29ae7dbf621b0d8427feeadcbe9285c23b777),
  (false, 0x39eda7b78ae8a453be9f4d9b2b583e420eddbc15ec4aefffe70fb9a40e73c08d),
  (false, 0x167086b0ad615d131013627cb770ba49a603a62b2128631528d049420501f045),
  (true, 0xc31201ad7eab16c4a2bf2986f88297a2851a90723093d446842f8cda663b40f),
  (false, 0x2252ff23cb913540e243643c15aad3de8fa0d511ab2733b9bb86348ccd7fb07c),
  (false, 0x388fdd7b60882d1e3f06d9a1530eafc31dcb0046f79e762cdf6d8069b6a5bf46),
  (true, 0x4b6b5b12a58cd475158c248d8a01a67842664a0b74c7a088c9f1b890575ff9e),
  (false, 0x15bec14ab90063bedf91a9a8b8b4ded9be9f22654d8eef9c915015fcf1413787),
  (true, 0xfc07732c6ba53debb41c2d7edd33c5266b4027bbf286604374d03df7dd58704),
  (false, 0x325f06dde3105d63af965a05ef5a63a230a8bf673f943f1a09bf1c9a6fe0f080),
  (false, 0x23fb93da5c599da013eb646c1ef3435d6f80f179f7ad925865fa6cfe128957cc),
  (false, 0x4fe4e23a00ecd3d4d23012922e78c26748cd87b049bceecd90a738110854601),
  (true, 0x2d50821f025f1b2ffdab4fca0ce4487cbf68d9a0e56f1c1148ba9efedca7ccc9),
  (false, 0xd2e3115144f8a934101540f730338fd80eae7ff4e608482cc1215a1c48b4d0f),
  (true, 0x19dc51b6c4a8bdcf9769de3a800e0e1ad79391e141034f4f7d9499d41640a5d8),
  (false, 0x1f494d55a813b47874516c4b2cbc60449eb54f066a965a1977b8fd89dec5020f),
  (false, 0x129785214cee1d3370496f0d90554f26e16e52a3f8f8e56a35e6392a40d0c8a0),
  (true, 0xb3a85e6e63466888287b807da7fc6648f2bf6c552b8156808766ffb3738a4da),
  (false, 0xfe6c3ce65e715313920dcf1eba46e559de322de3560884f7f40ae53f0e4872),
  (true, 0x1ae5bd1441f01cafea27753147b0bf17db08391997d355587ecc5dde0558cce5),
  (false, 0x1b9e75a2aa690720849a295a50eac775efc614805639b75ad77747c6656f209a),
  (false, 0x223729b091971fe1d73d3103e1230af0cfc3b6d9123baa02197343dd3c8092ca),
  (true, 0x1eead4ccd38386a9c617748ddee44978634d7c8107a47022752cf93eb570a484),
  (false, 0x3df3b519d6ff90fcea5f4e294b5ffae7b1d9c89d6cf9305038683219b0e79d79),
  (true, 0x1c2ca907fd2d01b3c8acd8383048b954fa548c8a23c9b9423f383d8effdff425),
  (false, 0xcdf14dbf1db4e500534cc0b86319329748a0118b35945052c0dc4014356d599),
  (true, 0x31f19aecbf9e2ac3514547daabd98913c0afe8ffbe90ddcebeb87632f1aa4ec3),
  (false, 0x1fed46e43cadd94b14dcdc4e124a41846cb0a42fc0ea5c8ed02fdb8b92082958),
  (false, 0x105c5334a79a120cb1a190e70b3ad624c44faaf09600c7ada5e037ad29fc46f4),
  (true, 0x1486f3ed5bc680c52cabb7bd23e0f186d8b8ebab87956c3ffb95a712a2239ab0),
  (false, 0x1b3b54d05cdef53ae1ffecea7619f30e90c379d9c49c271f40d5988d81e5a9b3),
  (false, 0x340317fbd765d5ff6cd111fbd13560517943c029305ed973e915afae8b1a93a0),
  (false, 0x35fd17510b135388f432847c7fa496a4b2a7f2de9e87234cb36f7a604aa00218),
  (true, 0xf7c69cbfadf30b5305682d49444df2733337d81d52b9b43a97bc31d67068374),
  (false, 0xed4f17f4420f9b64a91cf71e7add344ec23cab83967214c273c31ec79e92c88),
  (true, 0xce65af6baff912ee1183a9d3e8d08e60f53af9bcb8f007537ebd252291b49c6),
  (false, 0x1d10ef239bca2896b4de0de1bde08ae50a0715d77126dc79a5d30147dd7409fe),
  (true, 0x1bab2058c196863df3abe661a76f84ce42733d3058c97da15852c38a3fec21f9),
  (false, 0x3561ffb1f251e613e1d64b5db8bb524fe10950f50ab70f042a79eb86e874bd67),
  (false, 0x2da6040dc933649cb0052ce713fef05368f91797faf5dcde8114cabd0443104d),
  (false, 0x2b69285c882a1e5fad58cb8b0a91305e6161bb7446769803a00c16020bf7d0b1),
  (false, 0x2739e70d42514dd86c32c7a9a9232ad10d7996287f2aaf04155fa102847d0f67),
  (true, 0xf4615f9f2c4163aed9acf613cbc08791dbe9242b52ec28fb43bcb3a5220284a),
  (false, 0x2f7ed52964216377c976b00c7cbe025a5ffd772788218cde13f46590ac71528a),
  (false, 0x1595b8a2047a7bafd30bcbd1787455fde8d8e664aaf6564ef41c857ed0403219),
  (false, 0x892d612b88a413bb571d7676e5d78d4dbeae066c8f8045dac89a4a940f62ce7),
  (true, 0x154ae0bd1a6c0f02aab912f46866d8c52745d37eec1496635f776e5f302ad24a),
  (false, 0x32f44425b6edab9ab84a6388c3566bf1ffdc671c9c7395b072c81fee244bea64),
  (false, 0x1033a69eea1404d35fe828a54631ee5c6bc1b6123c86a756534c282b91173c59),
  (true, 0x3bd3ee893253b82072ff8de946477a2d09c30317506f7a0dcb1f73e25c4cc731),
  (false, 0x3a96e7ab363d2926d9ad0fc2ce95166202ffd24bd1356092c6ba84cd222c7e7),
  (true, 0x37e6b4867c6fb611dd7e97f5c20a6e34ea4ed6dbfde1a6fdd3f51e6fb79a3325),
  (false, 0x29dc14c0ab2f581be06e8ec9824b33421c2b46da2bea3154c799757d19271fe),
  (false, 0x36819570761235e373cba85cef85df0455fb6240e5f1d5606867fbee50edef12),
  (false, 0x1e79e895ad78e7563cb9cd9b03aa75ffd77b25a2c713644921b93b6090266311),
  (true, 0x35dae10c2bcde17044f813042968cc9c1ac8ff4c7bfd7fb503c4e79309c161ea),
  (false, 0xde9333ca79e53cb61a4baae2886c18dcc050ba3c78efe0e5a1a48d492621475),
  (false, 0x23af3e0fea486eb9f23d1f7c8489013f57629ea6084c389f3c2f34a84f075a7f),
  (true, 0x27b70fcf9867af1262beac9fbc2746a1690fc4c7101f9e8db9951629bd144dd),
  (false, 0x26da1efecdc9108d85ca82bd55daacd8f0118ac8561ee3cb9ae999b9c2f207fe),
  (false, 0xfbdc102f900b255de82eb9df1dc5c6fcb97ee0d724550a559244a84d16a9f7a),
  (true, 0x3715a5b2a63be26a83430b32829d8378f7e1c6cf736ed2610bf990c4ee8ac9a4),
  (false, 0x3e27db692962d34f552daa6a69b0e2adde187b9337ba02613a7f543aeaaed1ef),
  (false, 0x26a7c9aded8ea3deaa817781cf79332984bb41267a4eae0e8c2fef965198c875),
  (true, 0x201135103085b9978a73b1f2d4e8e90afdbb32da3cb18e3ba80777ed054e7150),
  (false, 0x14fa15b28cbf063a74d947acf70c3813413a2b41071b4378a38edda58bcf8de6),
  (false, 0x5c6bd347cf378ee79b512d531190f7a7059284001c685754b9661e009235a80),
  (true, 0x1e5e2a6e263ac45dc18c13bf9f3ca47d225d934030d3c671a8921e7a8da6131f),
  (false, 0x32bee77a61b13c6ad85c7a199f6e9eadf231f37768313a5a8eaad3f3d3e70be8),
  (true, 0x3e0ecff789152e18dee9c3bdbf1e558f141c8cea432369654767c9c418a1a777),
  (false, 0x2cdb4c87253752aab83df2b5fdb28982c042a7f93f18b0c820664f3db0f60b80),
  (false, 0x11c2807099b92f12b60ccbd20d64bc8b685619d702ece618855199a2939fba50),
  (true, 0xd4118adc2819f7785d263d2f5f4627b5f479a346b66f38c236ded445864bd6c),
  (false, 0xf19fbee6af726ad2238548a5b43d2a29d55c3f4fea4d28c415c387940df0cc5),
  (false, 0x36f058bf53beb0bce19b6c87b2210376b98e56647bee93e820d7b1e7aaf7a33),
  (true, 0x339fefe05fba8dac4719e939da7386327112d98fded7573aca13127e21daaf13),
  (false, 0x2626270580316ee930b1f7afa3dda5f65f1b68a3be207548517f988fb0cacc00),
  (false, 0x1c0ee1626194a8f408c148daa46ae1b0b170b46066fdc66fe15a9bd06e605c47),
  (true, 0x1bbc8858c2391c9ee45d8be142faae1269334c7352ff0753580f4da00a8de946),
  (false, 0x37f7db45b87b52380ee875495cf1cf0c24db7a5460d1f811c175a0ac94797f5f),
  (true, 0x2e15877505d83ebf5183610fcf4d03a09bbb7a17a3a5475e87963e4839fedd75),
  (false, 0x2798781bb1c6c6e1e193c686c1b907b2e411ae6191456c413337fe8c2ee21ef9),
  (true, 0x8fde2c6a7b1c465392be1729c97ecb5498401dcff98a26135387c3750eba160),
  (false, 0x344d00610984ecd3301c37f4a28d05821ff018098d1347ca0198cd63ef0cde7b),
  (false, 0x28d1d759b2b10aa4dcdca386402f698f9a0cf89c521886f6151710ba5409cdf9),
  (true, 0x3b3209ef84d309284737dc0ea552959053bc2d89df170335aab66ce7966e148f),
  (false, 0x6c57aa4de4ece093db6354e7614324e4da5db192e527b6f4ea78320a810c56d),
  (true, 0x27c6d6463683b96474920ecc600d6d61c417f33078641480968619d730a8acf3),
  (false, 0x19d9957e505da91faafe60dac684b6ba19c770b54a92cddc044a6ef41ac04208),
  (true, 0x27f80c31a8aebd4dd251515451835862205b5c51b05d10aa53955aa361fd3b4e),
  (false, 0x3970ffefb8ba0f2b2f277881421b4741bb047bd37175903f71f7231d3a5e0ee3),
  (false, 0x111edab35202de7e120032ac6cc907b8989eb69be0ffe074fa4f059d6b23b8e4),
  (false, 0x290876610bc71dc9805b34c969d2bac982e978f7594f63a2e0b46c68c974c4c3),
  (false, 0x105d32da24bfc93cfdbbb35567ec472fb0ce106d8318a92f474591f351d00665),
  (true, 0x2c90eb39b73c65c77e33e2d707bb0afa5402bfc3e9e0abc3f9f104ec94441eb6),
  (false, 0xc8ca26957793faefecccd6e490ca388aedd20eaa06175e0ba5cf6550f3f9bbb),
  (false, 0x128bcc3c97b27ed36e2ff920ceb209d90393d37f5b21c83cb04dca778724c77c),
  (true, 0x204e7fdb5a12edfc3291da281f81589d6e32c966bab21415c18140ee21db1f8d),
  (false, 0x37154a5eab5645953181556478323ba45230c77185e3b4fcf242e58183ca7aa),
  (false, 0x2a149e361e350a86b6363758e4b897b2d7b9888776e975c0ece86ff01fd6f0dd),
  (true, 0x1b06de7fc04db78cd91cc42f2dfb2bda199261eaf284acb7ea771642dd85b507),
  (false, 0x344cfe37d11d957010c76bc95d3ff5230db42436c563775554ea704d0c28a4c5),
  (true, 0x2cfc3671a2c3eaffe5c7b5740ea6a3f866230e03c2c50dfd3cadd61459bcda53),
  (false, 0x1e446324f004ccf95966c88d4fa63217e9d80f2bfa6182bd123367708c496d0c),
  (true, 0x2d1b86cd4f350d63de5a9442f8447739437c9e3e4c3310147791824f288a804b),
  (false, 0xf51b247711c58af68ff5ed720c0ca041a5a2f564f3e89050c6fe7a4503a3646),
  (true, 0x2f7b17ca62e46aa29250c586588af63a7ea540aa11ecc67601a8fcd278b91429),
  (false, 0x23572583be097811528db4cdfa595f9c3dfc16b22539b104d213ff10f6651ea5),
  (false, 0x34c24d463cb9e4aac1ae903b8e0fcdb8e527771a0257acdfb3e8d6b5426eff3),
  (true, 0x23ea9a336817c675934bdd1f82e3abbf183d98e75a20d15790a9df45b52b7bc4),
  (false, 0x345991ca6e65cf9da765acc700e4d3b2122d33d5baceb40e8a65f5a4fe5e93fb),
  (false, 0xe974e058ac28524cf78ea16476ab01ca83d669f5aa5dfef906725c59f7b3464),
  (true, 0x3e82e942bbe3d3fb7e4bc4817e6b8101ca2c51bc2f2539afd97db9f3cd5becaa),
  (false, 0x1d4a6ef49ebfeedbacf2fcbf6f5791f15aa6eb821543b2b297a9e564429a3304),
  (false, 0x37a9b59d7f9e5bafe5380434d499a22ae0bd6212093f77843d6926ba02149547),
  (true, 0x27e5bc1bdb4dfc04733dc467a3c8c721637974d77ae531992a53dde108da7778),
  (false, 0x81c77a7d804f77ec2ed987f983f919dd011091f40c252cd543ae8ad9f66972e),
  (false, 0x3ceb2a5cba8d9dab95d94229c2a3e161c99193b60e933c727c47abdd28635a79),
  (true, 0x2d4913fabdb98354c1f5dd2c8f0768d01d10dfbf789c9ab6afa83d079e7cd4da),
  (false, 0x23178cc0f6160219362b47d0b8923abd1f706df0751aa3cc973bc34e9a802051),
  (false, 0x185ba2dae68df776e9b82e201c4ed89965e19e006bf137a110446dab14801a99),
  (true, 0x2777ea1e605266127a2ed0c71a8c83bb8a824d98a3ed100be38211ae00f5a07a),
  (false, 0x9a2c69758fc2113791e26e9ac2de1f7a95a9ea325cd8a851d44bda597d88be5),
  (true, 0x3b93830b012ec2011c0478f2ea855cea75ffa219b16c501f7189c48c4763c68b),
  (false, 0x21f3dec7fc513a832d6790d3879c820ab9ee4274e90aef8e1a916eb71251cf1f),
  (false, 0x1024cf218ad07c45230af1442d60b4150f9aa5e9d25a64cae9314b964fd41895),
  (false, 0x6c8fe1607de3bfb2c8b0dbeef440a3818e9571af5ebd79569d472768f7b5817),
  (false, 0x20585323d17329761db6c30166b5526fdcebb0b1dbd95c013e18efab65a2c171),
  (true, 0x22ae0ea1ede250a2c723a9b8baa2f14174e95c86e335bf33c1c4fbcc89f41313),
  (false, 0x387c273d2f8308c08d460ed51a14c2dc6c844573a16d062305abe6e0c2252f65),
  (true, 0x206163f4a1fcf4fe006f0e5c56c284d4c6b90793d79d52ae593a6fcac0b2f3a6),
  (false, 0x1771fa9a4eb690a45f8c11267a0f068672d5e7313a21daa7eaf5b156763c6c7c),
  (false, 0x39d8407d6293c5c0a7b2da22e9e377ed27b6184cc3382a82c741cb9743af5f71),
  (true, 0x177332969534697e2b13bad8be31d92e7970d24b0158297829c1a12d3b0d47ef),
  (false, 0x5550b806975d9f4e57265160e1ff8481abb3c30a980e204999a40ee4b8994b),
  (true, 0x3eb4cdfeccd0903696f59d5f07960e0e142cf790a508a9562c6780748e9ca230),
  (false, 0x12b0ab43f9f45de14774a6e8c7c87c71236eb028d19c1a4131a5d57a0a6fb653),
  (false, 0x147c85e7dd2f4d22c3e070edba3ccdea3a36743676ff7066b8825c0b3aa6035e),
  (false, 0x3bfb98b7930896262a09a6c27c48e2f126f011c6c1fd47c691c722bd845e281a),
  (false, 0x1c5ba51285c41928fcaa29375cdbd625ef75a67f18bc822c9467e89f81345575),
  (false, 0x27d5069c4266e67e04d3e4ea282c6edadd39c16390afc46f70cd43feedac0c4d),
  (false, 0x4bb47f68e1623536fa43275741d488d3c854ec79906ec849fb84c01aa5efe08),
  (false, 0x34f55280fc58c878a83f667d4277e7d20de617986f188fbba4c838c49b3b0d82),
  (false, 0x3f99bb771dd860aab654ebff3317bc098bc40161aa115a175aebc3a687929ce9),
  (true, 0x1457af4d2734c59edf46cac76bb7af5b6b50ebb2dc3c50da7edd6f555fcfbb9d),
  (false, 0x83f67d55e396bf918fb84742341d27d29887d0a79f665cfd1c7afb5863cef6d),
  (true, 0x1f88aa9cc8a1f2a8ccc5adba464f9b34272b1475dbccdb5ebabe0ab766459465),
  (false, 0xa0adcff65bd0da8997b2044df9596c15b697394f81d668d8078b9f2e4e0794a),
  (true, 0x1ae527401f1fc7561605ba071e1a0ecb2af0c96f7f7bb49c1e7bfaaec88ee706),
  (false, 0x248f4ed99a77ab9f6073d459bf36c1cf322ff947da55c6339afc443857ae4623),
  (false, 0x9410e6b91fe727cfc89fc5d8e60cb9e691a7141fa39af66743068ab2b5d4f9),
  (true, 0x3bfdd5757414c1eeb289f9106a540efc9120479b82cfc55a2d20215526765ff7),
  (false, 0x1454cc1417c7d28a3ccd0bc122fc2049ce76f61f1c2f8275e0f0b9962b86414f),
  (false, 0x34204852674e91418e9496a1812f37fff817f5630388c78b4cdc6904c38c9ebd),
  (false, 0x2e59dc6e42457bbcae79abb8e8d3b27c5abe8f0557d830b5598eea017cf9d57f),
  (false, 0x311004e440868c90f2bf9cbca814ce17213167df8315fa49fd1761361649855d),
  (true, 0xcecf5e059f2aa074cda81530e2855df9ee6fcdfb537fe08c122f6132e27ec8e),
  (false, 0x35b6de916a381d3242189ee87e31a6fafeaa15d30bee8bd8361edf12d40a14b8),
  (true, 0x1e4a407ba1e9a196fc34518f7a3b143cc33a59083211b7798a612d2ba1df4800),
  (false, 0x1ba38d3665cd17773219d6b110b12caffba8a30505b17ce382fef9520d7e399),
  (true, 0x3e7c992fd3ff07ebef7e71e211f216899f3e2ff97c47b33b4134f97217665e34),
  (false, 0x16b58f103bfe4ccfcc089e06873088f286641a2a725bf86c58179651c96972ba),
  (true, 0xd65877205c1462d7ac354bceb260666bde9b8e2292cf0c50211d21a24a9cb4e),
  (false, 0x1ff9644febf6925a7a572c25ecb679c8fb3981af6633b4767bba81dde5752b7),
  (true, 0x2bca25bc408256179cdc18292268b038b6584c09f7af4e9e0c87db807d5358bd),
  (false, 0xbdd7c8c1f0abc687a7aec79019226ce5bc16ecfa8ebb43ce8b4470651a1ddb5),
  (true, 0x30e2cae701e387c0ae3e7f32563541518fc615ee3c90e4e8aeb81b0a143cae2f),
  (false, 0x2cf3e3e9a58f401d27efa1fc8b922d98f7b7242e4af20fce08ebb03e50124296),
  (false, 0x16754b9417350fdb3646ca7f2dc382c41c0828d7b72385c0a22132faad057570),
  (false, 0x10412d9a67b53208dea4f51efcfe56964c7b95f35262318aa62d529bb3c04929),
  (false, 0x1ce145915cf3f5315c7a4f9470ab8dc609724067edb3434e2bd072b19a7f639c),
  (true, 0x3f7dea03fe530cafb2af6b1df3f8c28da31d018c624d075b0e1e362a95376d94),
  (false, 0x2935d40284555eb15eb306336a28f3dbe215bbd5197cbc7b5bb548a9f3712f8d),
  (false, 0xa2b985e15147b6617ce5cf64ec346c56e6e684d46fe1c93f641349e7a6a6c68),
  (true, 0x3e7c07eb983ca901628ad33793502c161a147feaffc9d6be2123a16381eadc8a),
  (false, 0x289997df860a89a6a485067917be13a87ce0c4fde0265cb8c52005cb296deee9),
  (true, 0x277c0c2ba8d0ac2be58bcfefdc407c93877d5b853fcb403972b85698165a69cd),
  (false, 0x2f4c335c5829ca0449abe3b312d592a07349cedbfa57f8702734d136732f40a1),
  (true, 0x346c02e561deef75cfed55f0ba06695267cee15132ece5d74437303055f9ff87),
  (false, 0x221a4b8dd1478b59ac2bfc8e64d3a0935470445c13cec93cac61ba02bfe286b2),
  (true, 0x7787c74464421aecd1446db5eb73b6b3f52d9f06c6cb71ee7528d283a0a209f),
  (false, 0x5ccbd38d0abb4fabb7c1571cd60f7a104f034fb287a4396d7eab87500248f55),
  (false, 0x115ecf9486e5bd6faeeff54d0f6ff4adda04a17db3ee3e1d5c036833a7a0090d),
  (true, 0x1cec452520a9c8e98aacbae59b1555e1e64b72cb0b12a6d39117c974d4f0e03b),
  (false, 0x3615cc4106147cc3f802be521e295de11d551eca95b9201576cd200cca6d53ad),
  (false, 0x4cfe3f6a1a0f49a3663cdbc635850ca0fba699edf7a69881f6f6f4e3f5447f0),
  (false, 0x1bff261598224ce15787f7a9e84e7a5dc8a3f8d0322fc436154d7730d7ab5081),
  (true, 0x1e89cfe7b7c1f1095b18134dc6d96c948865c6294d75a28b2d1001b5db243326),
  (false, 0xf5abada63b66516c351b395acd5f04f8f4b2dac23325af443174577158125c),
  (false, 0x2cd8835706b27eabc716a1e57b066f4aba7631a8211870e8fcab638249674f7e),
  (false, 0x3137e4adec3e0c8ca62ac1711b3afc89fa090c8ed8590967901581754c6ac0b3),
  (false, 0x39406f5c99ec48dc04f84273e2315ab397bed0199fb12e77390811acf7c3b4b4),
  (true, 0xde0cb812e0845e06a38be741d876431aee8e0efa326d68b5112b6b518a5556e),
  (false, 0x3da867c5fc09d7a3f6bdb9cc0e6ddbbbbfba2441f4f3bf8f1fa2c4fede55a55),
  (true, 0x8c8f76a93fd136579df6d0bb93ea3079a0509f7d9ba6bc125016bccca88cae8),
  (false, 0x18628665739df34384a5cd5931e3402c91b26e91ad40e2edee4010a4ab167cd8),
  (false, 0x2ff6ee23fe6239b67832e16b68fe6b7f33ee95035c2f2519bb1d286bdf768636),
  (true, 0x313ad0d6e9fdf92c97cba5f123dd81e3ffe1c54b7094f3bf215609e6870e9d4d),
  (false, 0x3398cf6ae3927530486eb84bb08a2abeec404c7e0322e800e19adf7c528660bf),
  (true, 0x2e74e23dcc1ee31c6f5bb8376d51663d1cd9fe0c0128b88e1a2b673f6b4f628d),
  (false, 0x339b7841d63812d978f6369f85806d0caa32aeb01fa02f2be1f2e73b06e17b06),
  (true, 0x192d5fb5cc671f74ad56e4449771854e09e2fe944b8a220827a2a6774e9f1186),
  (false, 0xbc622a46bf85dc4b3d3917bd57eeaa40a494cddf51441cbd1179bed552fe703),
  (true, 0x5ef2da7e3561da8a677092096dd26d0d00350fef4d31d7030d96892c3862fa8),
  (false, 0x24638412b47673060a8b717e824d7215b45719604ebb11139314e29e4019da78),
  (false, 0x3f12076246d78408cdc465934f6f5d5dad06c6b4a316d1e80d0cab1c081c745b),
  (true, 0x807027bb05beba27ebb57813e2346d2007fb048b59045f112bc288e8fb2200c),
  (false, 0x1283ab055e93225ae2b5bc4dc73f1998c738cc59a90bffa978d828ddc59af71),
  (false, 0x3fa2b689d5cb694bc9a570b21959787548e1241cfe7a28fa8e4d2c5833f3b38e),
  (true, 0xc6162ffc5bfc02eb5e5dd1070e9385254268da0654241968acc57cc99c90987),
  (false, 0x261eb065b2241c71d04047f0b10f8618fc7968a2664e133d5828744fef4f80a1),
  (true, 0x1c26ae262615a9d62f247d50821578d73877e4eb034ca548819bec9d53fde6d1),
  (false, 0x1201bdf14c622b7f931164c65531de46b500da7668a595f8f82a5723afea54b8),
  (false, 0x2566a53d093a8b1b5cd0a0a2590647275d981c41b59639aaa8d1f52eae380e8d),
  (true, 0x2493733b692763309ab2d96a44117cd56a387ca087c727ae2986da9f16089d53),
  (false, 0x21dffb8e906e48a08296a95778ffddc95b5c20196a8fd06bd586681638aafb78),
  (false, 0x150477f03139083fb4e6251f6c18668fcc8f95b25c224531090dc75db3ce7e77),
  (false, 0x23b09385287b7687a8bd5e87a7c148854533db833d9367b2041b2f360e3139f4),
  (true, 0x36843268f7b76e7ea134fecbcfd723aec4c9226c308029776b7330624fc0e531),
  (false, 0x15efff747b2117a1eaa0c331d535d393fdcf5667b71c7cc95e3f042ebeb733bd),
  (true, 0x2f8e21f2f612a446b1f7afb478aadbacbf6c8201660baf32735fef32e1d79f1d),
  (false, 0x60945a36b69736d47da0f5138c38058c7fccb8b717c1f1ce9800501f81f74e2),
  (false, 0x33fa673b689a75eb365858bdb9b672c754e0869e1742998299902930ba3aec06),
  (false, 0x1a9e902b9b28f6cebaee290eacee4351cdea779ebca0c90fa03cab60d595b25),
  (false, 0x266665cabd84a9d06b42de1d6653aa5fba1db8266a54822ab22d5512537e3dda),
  (true, 0x3e2b035118a5067b5bb93663648af2f4b1e583a256a0ec017b95b3c975b3e097),
  (false, 0x3ba0567b509c1ff875fa48de66e29c17ff65501baabc803245b61a994ce29f85),
  (false, 0xe5c82f2b04ec9850b370e78741071261dd370d04a744bed902017178bf6205c),
  (true, 0x2d17813d1725db183edb4cfd73bd7117adb7b374cf0e44a027b5e11702d4b873),
  (false, 0x1ce77c4706dca977bb62f37ad51e57a0bada535651b90b098c625894d517a461),
  (false, 0x2d5b6412daa213d57e3a6a4f0359ae6d5cf25e9de9e83a9e416ec279b666345e),
  (false, 0x41c2eb2498228ca34d1270381090dad6e1d53969f7b05c16944904a92567b37),
  (true, 0x349f86649a1d21b4ed411ecbf1d1b57438c4031d44a8aebbc69b3984a70ba209),
  (false, 0x3689b90132c0d10c7ef68894514ef7f0d938cb33745cb0041be8461ab8dac0d5),
  (false, 0x1d3f8d9f7968a52d606b303bbaf7724d4c6c5789f9c48719598c118bd65d2e4a),
  (false, 0x267a2d0bac46df9cfae6b952d8e9749dd6aec65af8ad86ef859420fa85975b6d),
  (true, 0x171c4b37a8916564f8c3e97dc946d5acdd1b315c53edff2ffd70d86a57366edc),
  (false, 0xdbda0d5a5755e056d8ab8edc829d704c49688a19bc0e4349d8d98769a760dd4),
  (false, 0x16f17d234f031291c9e74b7460f96b8e4cd39281270a2572dc34e14160c1a02e),
  (false, 0x2136780d10e9045935c8213a2f657463552589088a97e44a50a589fdf737f3a4),
  (false, 0x2f977f16f899a497fd84ff2b5ede5a56ef0fc6ddae8229c70451b1933557f1ec),
  (true, 0x3cf6f817c92b914c0114f84b964716f22362f97fb20e69e5aeec3d0351a09a68),
  (false, 0x38d7bca6fa3840dd4d904187e0da9ed4c848e405a9586400e001706de2bbc1cd),
  (true, 0x38fcdb4e30f7a35c70a90ee6f670ac63827282bec368dc1327b0d0747af2551d),
  (false, 0xf04ef4014de46047584779caab34fb78da8dc46d8ec7431ed45091b453552b8),
  (true, 0x27dc1212c2cddd1f79cae78935672ad7b6429581a0beb1d3588f38ee84e66485),
  (false, 0x12318fc1e2015f96f1ac14bee99fbb957f00e15429a4c95547a6847fb2c6ad90),
  (false, 0x5903464ba9ab359cf9b9448f55c31fa666f522a9824d133208f59a0c789e299),
  (true, 0x1fff252b499e7ad229f98aed378acffab2935b248abe37d3824b28452cb6172f),
  (false, 0x2974e28404ec221f9a207d7caa3b52582fb05376e1c2fd95787131fceef97061),
  (true, 0x33b26221869bee226cac79513bd90d71c605e1de3184e7a14773e74492179e01),
  (false, 0x1e4521f80052248056b6c06c1fccdaa600c52b02f0de1b67a57a7105324efe3b),
  (false, 0x3d1413b985e40dd5739a1ba19e00927b93b182849d64843d0f568b4b15eed6d5),
  (true, 0xad07c2d6d8354e18ce0994fda9115807b8e09462624ff6e3f84d77d715e606e),
  (false, 0x1a79b8951034bd121d211dfed334495795f0e87151cf326aeca20a2f1dc34a5f),
  (false, 0x351854b261712de45fd995ed7c819cf55f57fcc33631c337ee1bf391aa768c9e),
  (true, 0x30290767f1ae8b5066e1f7d39209fd8791d42ec181e673c3ef37c114d64502c6),
  (false, 0x2dc0fcff221f1e11511408547b08128d8a73fcba6e13849d1a6576bcba6c0468),
  (true, 0x2f352394b8a8c1947eff9ab12869257c3ca34539c60fe86f621315e6b9feaa56),
  (false, 0x1812b80b89122d80a781742710bf9364b66b966792726c618757f0fc8702becf),
  (false, 0x2ccd72fa129b0fb6ce62c5c48093454a4ad51ecea73aa998913376e2ed364290),
  (true, 0x1a828a4ea673dceebc14eaed37d344501d07f8b5147edf9b1fe04288b2297ff6),
  (false, 0x1d538e22c4a24b049e0d3e516e860cc9c9ed1d269a6b48f36e75610395c6ec1c),
  (false, 0x3f50b0d03f30da34a6e1809b10af875bbfd116323b534626b0b3f3fa5149ca8f),
  (true, 0x115fafb104a564f77aa11b6cd5dc2894a936307ceab17c75718dc5c0551f0bad),
  (false, 0x3bd866a089f942d1ced7f82c7f14d09758e793beb2cf6ae317dbc2f81ddcd7fa),
  (false, 0x19196cb15786eb3f3b629a0833fad217eb5d117d72dd44abfe73f51818c363cf),
  (true, 0x111d80d042c84be1fcdc00f237098f2c2d74471066d2fda2c3c2882064e81602),
  (false, 0x273e013a9a9f4b778daae32b7eb977ed11308e249227e17fa746d9d5896a4c37),
  (true, 0xab7965922ade3d2f2f30043f74e1bdb9feae971488220c447b8856ecc5ea58a),
  (false, 0x100a263790d84af0cd73d6fc8a0ba2d4fd6e73fb9ea2f3ba0546600c948bd252),
  (true, 0xc600f32206f5f83ffbe4dd48bb14e83a54ccfcde59f585f755d167886dd5980),
  (false, 0x32ea101b4294d994aed12614dd26fb45d0b5c444cff6f444c14942eedbdf9d0c),
  (true, 0x1a8ca8c9c8125b9dbcd2af7150ac634dc8cddb52fc95cb38670a5d1f82e5ea1),
  (false, 0x23fe6e1e7bd79c9c37f540c16c336c90b87550423ce385bd2586611d0e3d8cf4),
  (false, 0x1c42c811f0411710dbaa6b346398153f04b7f10f3f2d1d4e391c92414dd058db),
  (true, 0x2ac71ae5d931126396d99f8146df8646dbf7036b3ecf8d6b34d0a691a4a38f79),
  (false, 0x2af84f34116d698aaa49518f5e1c22e8d4c332777f0576a06e27c3a56d0a011e),
  (false, 0x349f825df22544f84243cd78e108535e754da88af5cc78143db0fa2c33d7f1db),
  (true, 0x23a4b36f776d3381d60ba57980523719f4df596a191865c2722308114416db85),
  (false, 0x3f84dc095546aa4a8c3fa5f29516c3e51a495bebaf9880ea97be91cf683e190f),
  (true, 0x1cea2d6a2a58373e05389ab6ee5d2d100fe31c2fd47f15c38f2d60c333b52448),
  (false, 0x32e6d4c2ff8701a8c727f0f0a4abb5785fb5b449ab35b2174286a37d09207426),
  (true, 0x103482db405f87ebac73d48cde1e0498a902c6ab5b81b8e01cf7cbf10a3ed7b9),
  (false, 0x13be62013fe28d9957a85909b82355c42c4c84593e705d78255e87b9db01fcba),
  (true, 0x288ebb38827c06eb47497cb8e8b95720f5484190775fa4d659f475f88a00ad1e),
  (false, 0x283f235737cb0fc85c1d065bbd218c5913701f88260f2dfb1eb20436afea69ea),
  (false, 0x96ee83a9b78306429f115d2e9ffdcb7aa5bd798940ef736bcbb2772e5585a36),
  (true, 0x8d5492c112b83189ecf54c50a793d1cf57a4ef32ba6b3fc314d012dd38728a1),
  (false, 0x27242dc09e7aad12295820006b134594ad1f09ca9763b2837958949f19b2c6f2),
  (true, 0x1ea4da9ca1f749cea420a3769b86fec71753938466083a18ab80aaa5ab36a15b),
  (false, 0xc0a949769735de79240f143a2f842dc4ae3621d703a648a4e7146a644a15bdf),
  (true, 0x24e08f2cc5e03ddf2a1e5b59f7e01aa8b0bdca7d7743f214b9dd651e56d5d478),
  (false, 0x279580937219ee2f1ceeb6ddb050f55ca61d7e57e0186175e01826b65880e7da),
  (true, 0xd98ccaad487d4c22b843c6414e964e64cd7d8b7891e06ada729a9e8df7e0c42),
  (false, 0x2845689b73e33f06a8451aaf81c050060250ea371bcf5098dcf6d505006dae5f),
  (true, 0xc3c8bc0e64d3b219e04ffbd7adb01c9bcc20d554f1025ebe69a52c7aa412d2),
  (false, 0x50264b4e3e351b5b60127506f008c0fa9f9fec93ab795ff34079c4d32b83d0c),
  (true, 0x2afa928e7da5cc80774d22f325a7a80e9222e56cdba7798fa938d7acdb1f4683),
  (false, 0x377cd21c547029ed8549d4f0c1bfa09d501fd9ab992e52851f87e1137660f34b),
  (true, 0x30d01bce0ad04c922c3e29665d27c9468bdd4718b769a816e468046894420a75),
  (false, 0x29f5232b09813c1f4c64ea01e55f09471212452edead0e080494b7c9f5edbe04),
  (false, 0x140393a9dfad6915835ecae1bccf037cf3a229a181993e20b0d89d0817789902),
  (true, 0x328005c2b9b16aa575d221b03377d688606a91a4662ff1bb353ebd15a80283fb),
  (false, 0x1d225edb8cd2c572ad66dcc79550c6a7339c2445f75412026419efa951e26067),
  (true, 0x6a321cab5b55e84cf626a036c388ff2ba187ba910c56bc3a6a997693a6609c7),
  (false, 0x3c2ede8333f823e33b2b812aaaa05317a9328258649f5d8ef82008b1e68dce9f),
  (true, 0x261d53718589cc15df9f4e5e26c79967bddfee8bf89e50284e261a883cbe51e0),
  (false, 0x175270b6c9d64c738478132af5338902b2a68c70d56a95d2289a4e85d3139487),
  (true, 0x26cbabcdb27f7ceb8e96b5ee2924308ff16f1b7ea62541fefaa9b4f1d4e22b47),
  (false, 0x375c3f8fdf9633073e61df2a2c6c7192740e92b94c780c757460e75e71c1328f),
  (true, 0x4ab2a351a07edcd7af4b5c002ff55d022439a57186f87ecb93b220e132e4e06),
  (false, 0xb696c7ab7220cda4dbfcb4264cba734039cace77331c92b36cdf39925109a65),
  (true, 0x103515c71de2cc56bb8bcb65044cca94fa0e0e700b7afe743c105b4d294287f9),
  (false, 0x347993ceaead3bda077b03f0663131136c9f5e48d550d502366e92be0f8b211c),
  (true, 0x283d8382dcac17b808ce60b24ed9fbbe2cb5ac1655b09c64eaee9c4b7e2ccab),
  (false, 0x147fc43d904a8f5c1eeb8d63d158afb85b758afd0f7921198ece7838563fc22f),
  (true, 0x3278fb85dad2c42b43ec2314cc65c992a510c4147a284ec759f0009a8945ad69),
  (false, 0x219e764ceaf2af22d26cdf52b55b352bdddbfbb8eea6bbb9a18c327a20b09cad),
  (false, 0x1ffe9b898b274f51d5c5a2abddba17cb4f720e166205159cf743343df51bbbf7),
  (false, 0x8c8463ea95b9d26ffc9625fe36f1998d097036ab6df63656d5c8104658325c4),
  (true, 0x1efe57d554115bdab042f74072fd74e97b04a2b0ebe352cea5d2eb0cc98c7a63),
  (false, 0x2b5874ecc99337178654eba182dfeae0d26b8c995f7f592011b3063c919d81e3),
  (false, 0x283b8470c4dc530ace592ec85e9f68d191627e00ea32b28414457e9f9efcb42e),
  (false, 0x3c2ea91b722eb2904a535c4909acae4f13700580e6fa57ac7a2ed37e01290d92),
  (true, 0x330504be11f459e5362540e4f48b554fad76e5b4ccfbdf769893757694b2d336),
  (false, 0x3f979e710f21023b7a2a71fc4853cffbd8ad74eba32792c72549c0ebc6d1fb28),
  (false, 0x298355900a0e5126287021783a99e65748652e1fea340b18c12e1132aed28de),
  (true, 0x2ecb74885502d7bdbc30591ae8c8737cf10063266fd9e120422e5259408b4f5d),
  (false, 0x305bb983d5d3c97c55f414c840a47b67aa35c07606369dc8873274330bf31f74),
  (false, 0xbe3d82ff13e121b67094d7e860a6acdebca782da704c182c1b7c3b8921a5b6d),
  (true, 0x3af93bf5853b26a6352cbd786017f6388fd7727d8bb95801e106d1277516fd43),
  (false, 0xf4597eb647b6516faa2c17a55c727f35e33662a3c51a956266d7b70f6502993),
  (false, 0x83b8686961ca5b920905d6d239032afe2a53c0a65a8a682f41a2b022a0f529d),
  (true, 0x31af3cd3f115f258e15a6843b8c3e9fa06adacc5d0d481de3ee0e1cf12cb51af),
  (false, 0x2b92a412eee37255e1976dd8d54fc6b972dc2bcb43b75af9f69d632aabbe208b),
  (true, 0x2a2946d9e855e978bae900f5550e4f1d6079a330c530244c7c80f7a537e34352),
  (false, 0x35ea204ad3402c44e6443d029f8133bb8d9e2ef14153917b71a9a193a43403c1),
  (true, 0x34b734bb2aa8605d2f5a01a02336ee14b9890ec243453662c4d03b42b5d4eb07),
  (false, 0x3763259462323c04f68c99ace7c8ab741d3a91c41ccf60993b7e736fbd6f0f88),
  (false, 0x24fe13c9585792a1855e9743f77f896595507b19e8b6a10f2ed3888db2692222),
  (false, 0x2d35c8da8a809fe292a8e70fe16d80ac47d3ba647293f56cbdaf61e5476cee0a),
  (true, 0x1d8ec639c71175e102f60a0852774d16d06ace9bdb339cb74396bc8d0604e0b7)]

end Ragu.Pasta
