/-
The Poseidon parameters of `Fp`: crates/ragu_pasta/src/poseidon_fp.rs. Generated from that file; the
literals are the ones given to the `fp!` macro.
-/
import Verif.Model.Pasta.Fields
import Verif.Model.Gadget.Sponge

namespace Ragu.Pasta
open Ragu Ragu.Gadget

/-- `ROUND_CONSTANTS`, crates/ragu_pasta/src/poseidon_fp.rs:26-475. -/
def roundConstantsFp : List (List ℕ) := [
  [0x2c44402b93c5ac82bc8bb58e947fca107e865d85b1cb0f1f32f0c05cdaf439f8,
   0x023eb54d53e89505d0c9258bee0de17bb0a11e451b48d22d88549e05e2018403,
   0x349b3f7366f89983b3858e40a22f53fa2e62ad46932303ce85d42591ca5141a3,
   0x0b383428a756701b8c1c1c38c9c3abbb4df3b6fbb5a581fe9bba326455776e91,
   0x382d39c6bdbba256b12d3fa4476187c14c4867255ea999c6503e92f520e9a918],
  [0x3bd1bbe1f40eb3fa7def818257305e9c50a675d756e6aed051fc4e7b7b132d8b,
   0x36a92b9f74005c1802eb60930a7135d4af73fc20a535506093f98fa0aa1fbd91,
   0x1eeb8e80a4a1382bda0c063aa61dad5da57fa80865d0beeb2b9e69a07b5965f4,
   0x245c1c6d6f21bf7dd2abd1626514169678fa53bd900f6bd2cd854a9a965cb77b,
   0x1a1492b84929e7080f0b6c8b1c46e9164beed12136837032670d44165d269c69],
  [0x0b0a1a2b2762612d71d2f2d692c632218b5e47f3f0e38d638cfd365c313dbd48,
   0x05b20208ea0377139f322767d36fea854d28ccedb083ab8901f4054f822c5101,
   0x0710c608d8a48043e99dd94a0b1d22906b67dafb6bc5b95adf8c2f24ce81b0cd,
   0x09221b8a932a7820912b20bf5b919b7e0a22b3c9d2a1f0d9832ca03b0fc0ed9f,
   0x114be59c06f561e8324e306a28896fb1dd3802773891f54f0b8243718ef12542],
  [0x103454e35e0f4d690d8d1ab122b4c5c92e0512004f1af1e3140694c686cbeba9,
   0x2d2d628ded9373dcfc3ad59072a51b9a2d6c8c470753066195b77ca3a821fe47,
   0x2b0bf337fd4454a5e38344e0e711b9ae2281545fd99ad3fe46da2e1e4b9c98ce,
   0x0575c431f72a40242de5963e47cc7dad1aced5d9a1c9de5ac7ab5c22fad3cd67,
   0x0ec8f181daf128e716d3d7726dcf8ecbdddadca0063dc726196baec197eb3612],
  [0x33779259084a94462f31c2650f6affd717ea200e62d2349f07fba50dd64b4875,
   0x122bdda32a00e4a3335a55fb2af4a24044fe2b223bebbbde2b32e09ef1add101,
   0x14884ad16b1f79e5ba9d3c24b2f3f76272411ddfaa9bafb421ef4d583ba736bc,
   0x323f85cbba64efc38ccc35c5fa9d673fef3ff652da7f2f93e176a40de61e1e70,
   0x1a3fac3af20c37aed0e41f6fa6f1a488401f16c61fc3a4e86cda951a0e3795e3],
  [0x1d927c14cd47e25613656bc80171954894d2e882e35a4dc804cbc0803d47a814,
   0x22f1a2a2ade490e188fea20d062700568123e4b54290ab6a695584f3ec971eab,
   0x2c04db231c81645f30937dc5546efb30690acea9ef5769ce42000f486f893a45,
   0x21385b6f914a8c6f421629278dfa84f2ccdcf621b05013247341438237ad3fc1,
   0x2f00090ff1cb76eaf3b6cf23718ae736af07c34cac823388e0234420247e3160],
  [0x028b320c702e077887d5556c7c879c7d54c6c681497a1d4fa5f2045fc553211f,
   0x2502f751749978112c96e7321ff1c0b76b3ff74190dadba0b67eac15462079f4,
   0x0a02577f723a21ced13408ed76b38ad8bbdfcc8132bb6dfbbbea8ece52e0e810,
   0x1305a1f607f37901c0a88b2b7f23672efec118296f4550a058f4f94c25b66092,
   0x08e98ff1f10c0092b41a881d5663d8d85b081830f3f5bc904dc9b2a88969344d],
  [0x1a986478818b795d1a509aff8d2ac2588342e320b77c1ebda86c5be7b0389487,
   0x3a68e478946a5cfc6c3a21c7416ad4afa64f7130ddf8986935942d6835665edd,
   0x115b2ef9469d91408b6e1d46e671d335aabac9d8882cdf17d1afb385b1051e3e,
   0x0b7fe376d67252e90d9f06b43947fca03a50072c24d8598b7248fbc8b0d64e9e,
   0x3333d094869d1f23f0ae3787ad1c105122e8338b51b7a970260ea700d409d55e],
  [0x36291942b0c4d1329fa0db7230b3ef9be3e8e4b1b51897631bed81ef4d405327,
   0x2ff0b6bb42027bb7b5eff8a312df92db0928c4fd5f47b6cdd87a13c5983b50b5,
   0x311b329ed3aafeae007cabd2bd3cf506698ea4248dc684145e0d2a2fd789a8b8,
   0x18cf391449564ad053c4af0b0734e6c1f1de59d415ede6c4ded5a29e64420565,
   0x030053d7aa258bd41e80bc261fbea820091418b2fe5121ce24e12c1ad57cfe12],
  [0x347d2cc8b97eca81ed23167c5c2f6cb214972cc54cb86f93e5e49b52ab79ef81,
   0x32f72f5fabe91e618ef627a08e9d8667a9180a22c10aa859d70b80239bfc8cc6,
   0x0ffdf50ad0cb49c17906f3cc43ee935b6a82cd5ac4574beb8d9df72eab4e806c,
   0x27ec5217fa23b99f059a21d5ef05e9e477bd68025545246edce72bd7d70acb4b,
   0x35491d836b717f64d348e449d958bada0f89479479c18787c9046c846261de24],
  [0x397ccc5ef29caa6de873609650e9bea17ac048e52e4f8c86cbfdbbdc9f5eea9a,
   0x09afe5011abd7c99753eec059463d6cd5c91dd494afe903b1ddbd0fa74cd1753,
   0x28f1cec0ec97fe7aa7d4642897e1c51ce50fe46b5f28650bc41e523b370033d5,
   0x0cb26f0ca4624dddbdf19003dae43f28d0e2b75e2df657d9acea9140d860e51a,
   0x373bf8d7205b2684fbf374dc8d8535d7f278815f7cfd857f6ee064e8c96c3454],
  [0x3c54727f944cca495d23c1777e7536c6321f871326092e6beb94d87444157ddc,
   0x09637e652e915ae0bc1d62b7da1c9d8b973bf8f23f4322bab6bcc7b4a4406a9f,
   0x18cb6e5d6d0959114085a657a62004d6d4bac25ae567ca63501cd280f915de1d,
   0x072db66d8b16ae3aeb6d9e932e4de43e2e5cbfaaf34c7a0aa24dd9cf2a8e41b9,
   0x08c6f1218fd35bfd0e6b5b50735a0c9a6d284f4051672f41c0fe39465f0a3af2],
  [0x0eba8169994d61a6f1d3f5a7be72a0229f10693847f87734cd5305b77749240c,
   0x04851fb71ef33d8a5df10bf40b43519035055256714de067c7d845304d464145,
   0x2a5da7e9bf73c9479fa6e5f71288d31cefb6894921ac1e76d1e82be69ec4fed3,
   0x22fc306957bf2306ac57ac3301b2d32dccdc860a7c0ceaddafd6727747e42034,
   0x2e237e775ea78f7f7b0843e916f0837b99e5f2543628d0b9050be31e16fffaf0],
  [0x254faafb9e2c37d7918e6a9f7b627db4f5317e83cd293ee6d62acc483806a7ca,
   0x20efada29ea259911ca23420027e98b8c5af2a2f202903c7149a7167d6b0ce6c,
   0x184a55e01875861e661289b3ad905293239eeae97ee5db99332b37e8f6c307e1,
   0x264991a53ef2e9918551c6b90ef7bb8339cd2f898e2322f44acff18b9b9a66d6,
   0x39a8104ab4e2622b9523a3a9f9ee3b41a8397ea953823e419e06269fb3d2c1eb],
  [0x35728c2b81c712a34f3fe53c4393021ae73795035bcf1e631c0a99f44bf5639b,
   0x233bd5884457b5a4e1b4d1298f4695e172e6193afc096e78af06c474e85b13fa,
   0x2f967109b61b2b2eb441e9a7132308cf975724cdc241eb94655d5480b6a45cae,
   0x3829281d031f932f1ae9a2067bf6513dc51d5455b6dfa2955b16373596a7989b,
   0x03b69267b12f495332d5c8a466cf1323221b891669924d118a44e89c0df8f1a4],
  [0x1d33c92e7d3ee1749755786f52ec76c7bd7a9a4b772174702a35fad10d40b2e1,
   0x08d86c442959963e62deb44bd05d10e51e37c66c524c90b18fb3537ffc3fee70,
   0x24194a8ccf272dee642baf29a85cdb203bddf6da1348fa538abde1d28b1e170c,
   0x1c0b6f25101f49faa88022f8c83bac53ea9f160f62b6d19bbe321b5fede43ea9,
   0x1999004fd6cd12e05fabf2d5b9f0cfa062c0eb4a90413894e2d1b70e5b5d527e],
  [0x12a5fbf0400a087aba86a4226a836325339c3c95375a0cb09db74905ca5d968a,
   0x11a3fa42d518e20448aaeba3783c045f368a3d002723e10676a541a9e12a78ce,
   0x2f59f158b1c60bf12bbb4d956ff1dc9442aad7e876e2562d4438dfd2e2655ba0,
   0x2849b06e476443c43bd47dd906fccdf2728c537a7a5f0f6938e168bbd8149a0e,
   0x3fc33989242fa44cbd5172dc768de9a6c9d4a142d6fa7b99679735aea4e3cc61],
  [0x04609e4a1be08e45a07d3cab7478c170a88cdbf32e124721cf6b8b1292be02c4,
   0x011de2c7cafc96dc5d5919ae288780167e017d27067288f8c79bd2344700d97e,
   0x0764417ff69a6cdf71ed5ca55be442dcf7b9c23364cedc4830ce28a8d31fe617,
   0x1ea443addd653c9a0eb5f9a7dfee8d543f3f4e413067c6bda7fe278f6f0a6994,
   0x30e8242b2eb26dde1277a06df6c4a335e18c3819df2e71cad28c1082a1c94dfc],
  [0x08a27e30763aad74f3d3f24b6e19d4a3bfabca120244698d3f4b7bb2ad4919a8,
   0x2cc5903961de4dcbbd0933b1961ce0f9e11eb86626dc332f1787954597b45627,
   0x2b93f9997e71be645215084ba7e08d2ff99b8f839f800caefe3a30661396ce61,
   0x1fcfaf860b9f60eea753e8a2d79c344bf94384942cd898fd9a254acb40469c50,
   0x28b4dc5e4f2550e929ed53c414e2cfea1ca76b137f7ebec54533c4652105b938],
  [0x0b6e82f7e448979b1f794e2449f4cf865d12dd0515ce061ecc2de699ab8f9364,
   0x08ac469169f16f69d9953b3f0060e6356abcc7eaf46216a83146e6470d0f3407,
   0x1842a0080d610897631657769cfe98480828c5af6f8ab0454e1fc5181871abfb,
   0x1b4617ab22cbbeb10c39493e2dc4b465e17e795b82ebb9c986a18ea0c5f71312,
   0x12f49e7b20d1b518f36f2d3aea11fd8b60f19cf5b0a2416076f12a8b203f1854],
  [0x2930f273fa05d398e9439d14b49ae806649b330696b98864d603dae3afb0ec37,
   0x0bd3c0be6e783e92b477cc3429c27de9c532f3269d540c49be9ea939d7a1a68b,
   0x22f54df37e0c28d9ff08bfad67c572127f657256b93974992e90c362b84c142d,
   0x2ee0f0f1b7fae6d6ec9851629b8410c9b0d80ffa0e6bca06d6009c174b4cde76,
   0x0c2e0aa86422baebfbd0e70123222cf86ab85010684f0d6d4b7fbf8e2b968001],
  [0x3c4a879d04291aec2897628e731f3f63e04a8c7cd382a8c0fb014a62bbe8be61,
   0x1158d86cddece49c18d48e32822fb977de5033e0e902c45601f8852193e4a604,
   0x02263730859a58ba2d3db60d5d7c7466824850b3207435e476ba35890a37fd2c,
   0x1330cb0c5d2fa075aabb6bfb28276a9bbb44fb43306a63246aae25e1527868bd,
   0x16b95b643081cb043bdae50355f91df79c9b588c43e59038e6e6d0cc1698b5a5],
  [0x1fb8d50108e2fb3ea1f80aa372da950a36eca4571240be90aa5b3fccfef3c321,
   0x079ba56e1ca1d8c8eade23e8273e2db2a486901dbce8cd86caf41ae406fa21d5,
   0x38ed6aa3cc88a95fb845db9d5ef043ecacbfac58a8bb5cd9bce8e4d1e5967c68,
   0x2aae4dacc5a04fc32d1abd33601ee1c23c2986cc24dd63bf6d63be3a996fc5f4,
   0x195ce730b876d5929a76a7c5d69bf1911280dab5a69c2cd38ee4b61dadfc00e2],
  [0x3cb873e98b29b2ed4d8066a06315d673bdff53c907b9adfbf52b37bd9799521c,
   0x0793192ee98e2f57a73911ddb781380b061b92218fb0d79416ff47ce679703c3,
   0x3c159af2d3c008156298b33d8cab5ec2e8cd70773d81414266812783cdabe19a,
   0x1c065141b64831c3ca0dcaf2d805bca7fa9473b9b163fa4c35fa3c83d2f933eb,
   0x23943e9e8a571aeb36c24eea0d3ee5f097aef800b3b8744189c74c6abe4f3407],
  [0x3e9bf606619c174b6b417a2fd7bcf68269a082c5bd72fd8dd668bb3be7cbea16,
   0x2fcbf6ae9d4cdb276ea017df3d2ebec767c2b7fe1bb8558e9a6e3322ae63a62b,
   0x006e70e25eb8093bdcf955a5364a868b75d3729d057e78ad8358204ee3b1f8fb,
   0x1f74c3f88a37452f5fcd729af8fa1716e1d434d5a394e0457094f0563c31755b,
   0x019487e8c5dbb68aa598be6e60a580aa186baca856104373fce6ef6cd87fddce],
  [0x21b5d82ddd050ecca07247349ae1aa49c63d1d52941fbab73e5060fe8595e30d,
   0x0a062f37f718f4c37a8c2bf9ef2f7c4a2119ba043eb6ffed51e0b5c55b7a247c,
   0x159f9276bd128ed2d5b09f5fdaba71bf13806df7a17df30e6ed08086b8dace0e,
   0x397cf7ac45224459e819581c1f2ba6412dd078820337ecec0d6a883b83370198,
   0x32e654ddc435855db6a681a4134ce1a7f85525d0dde7a8e7365f36d6b8acb385],
  [0x07245288af44bddd2f744d5e093ea7f100de626fa216bc3044516254939edd3e,
   0x0c0b409aaa3a87cf5c0504c624b23570dad7fc9ae30f1f056996bb6a7b2b5c53,
   0x03801ea9c955bbc5c32ff8d8d3174bcc2f4f3249b711090a4c963a784e06c554,
   0x17690270da56baeba4e614f7e8780b3b15201ac3d7ae406eb4dbe811f8b13956,
   0x0779f987f90f1c4f8e319418659d4bd33ac790e8eb07c153c28aa089775dcf38],
  [0x2f74df84cb03f57ca5946f15f2fb134d42a3288f32a5d5ffb1a9fe1d2a391bfd,
   0x2f49ab87e23a5d392c5e457337342795f3066a07f987de091f325ac32b8ba72c,
   0x0efc38d20700d5b5a3b055be496dbdf82b0ab3e07dda2a0df3b16c07b02dabb4,
   0x0903ed0675157f6629cff37a2055f827bdbea9801a09fa7ee01c66b108265b8b,
   0x0720379ef288498c5e6100d19258c915b32fd1f76a7878fd3575137b695e5789],
  [0x2265c46e022a5ef8ff8e9293803aff7f15ce0814a9edee3b1d546c7865407e3c,
   0x1206dc6f2948499c0a2d173e0ce4850870a8b1957d362ce6aad3603084cfb48a,
   0x3497b1b2410e8b30f6c09dd43d54aa9755c4bdaa743f8af7df57486dc70786c2,
   0x1ac1322d723d7d2c9e8a475140bc3991e124c7752dbe38d83ee03985cab3ec06,
   0x06d7e810be67618152bb71fe9246ed8390e61d21fdaf4d357d67bb5de77df230],
  [0x0ee137d56d3c1f10af868ae52affaa93f1900ef4b93656322c7f295f3949436f,
   0x21da6fd7aaca1d900c16ab0292cbda61f3c784d2ab0efe4fb1b87d443b54a76a,
   0x1db1c07b4c58b4bada79593314f41f0050a88831ff9f9073fb31114e0e67285d,
   0x312b1c75d7428aa4ddecc9229f9bfccfd4be6ef3ba7b16e04c6021255d1de0d5,
   0x08ac2c7ded2c05ddb49ae7ac6102c229dde9275c3589a88b40069c8c3cf236ee],
  [0x1725748fd880aabb1d6453669335fba232e6b2d25e69f3d56a504a3e5b05d76e,
   0x248998a735f44fc524d9a3854e5d49e3dd1487e334ab8609558b89a5db585558,
   0x0c8b5a14aa194279b5d7676414246a40756786c8718d30a87d643d9320c4ec43,
   0x2532f06a0066838b5c4cb4ddbd2e619bd7a9a4e37d4def67d20cd24cb8e67206,
   0x394e2a96c15cfa8f3ffcf5cb63264101b5c86f3fe92be4f842eb456d57295fe8],
  [0x1ac743d177683ccc6719998182d6b7f431f1251f47a8446dc256830a359a789f,
   0x3e3e342fba7c149018bcd2cc36ccff80a7eb3284f044cb5dbb9fb325f3b4b9f4,
   0x3acc235e3731adafb4e9d9ef258e17f27329ac022a49b127205de91ea9322c8a,
   0x0ff89b10a1c9e65ef3a74ed5f7ac9892ac86faefc74731fd2b600834b186aac4,
   0x38ee391b76fd73893fb64102547ca12c03cae780df15bf46727e57d07720575e],
  [0x3aea1da1370f5f1a3e7bec277a3cb39f286f3f00e82b701a359c041bcf6d9b80,
   0x21527c01d8037ea85f26001543e0caaa27114f3d00a155fcd4038a1fef06f0d9,
   0x05b6e5b66f488a0378388224ad8c50eb6764df75505e02e713c95dfeb07da075,
   0x31712374e5e6154ad9e2c9d26e6b2b804755971130c2d1b9bacc151872e69e19,
   0x1e579ccdcfed1c91d2fbf8b171f7c5352a986493bf227e5a9b1b8128a512646c],
  [0x2a2acebc6ea9b7b1170331b1f5fa73176ac647a25f590752552d88120ad535d0,
   0x3875898530fddee93f088fff6afe6998548c24552e1ce79bfd6989a34f91dba1,
   0x19380c553178569b69ba13e029af8a40e2753db62df5a0a70c13b6105f1e3daf,
   0x1c00372679acb24658db79cde4b98711447ea35fe771de55c9addc7ccbcfcbfd,
   0x0f91e67891be0164227f53bbb878dcf24262bd48a3003e35adc2a55de5a47db6],
  [0x3ead3e9e499d91be44dfb36a1ec2d0e606a736e0ab546d4454e12835352fc115,
   0x1598c26031f70feec9e034f64b1d9a36a695d767a26bfa59cee0cb445eb4b307,
   0x1cc0c0f8eaffe3789e3b439093440f1a60b921721763d41055c78922b871b03a,
   0x1d0edcbd6dcddf3ae0a64a0cd44eb759f2330f172cd4ed007a041ac18c5de850,
   0x328371fd8f5642affaa80772e382ba086b4aeae25cf32cb1fd6a03f4c17434e3],
  [0x37941017b7862dedd6d93c13b7f08bb932defcd29c70d1b1d5724ca40c29cc72,
   0x10c59d50cb8d8d939b2b97163b5ce65d63d4b0a58522ff95addfc01620ef0100,
   0x0d5b533b43b0b27d9b64551c7ceaee9fb0b6b9061d13326147360615dda11212,
   0x16ff3d1de7193f4b98611664a8b64cbc4fe39ddbd74337d8e347e4bca730cd94,
   0x1cc95775b2716b3cdd35e56a7c7b2497564f9f44f202e18baf52d064877a4eab],
  [0x36daf37534506831829b7229f6b34c5020846e98e02eef2db84136c910ba1594,
   0x12b11dd703fc60f2ede9f64b5050371c32fe393d86a3341996fc4210069d2a22,
   0x27bf254291de0508e8b83ca24a6f9412b5eb98ea795b87bb1040e411c2a823c9,
   0x35f4aa5fe745e6e65654e48e4b395290b2e872dde27245f08910ef4e0ff34b2a,
   0x24fdbbb549e57cbccc5914748a55d3f64778f957b6024162b89b3a3de13b1911],
  [0x22485592115c7396684ea68c47390d13e784c29e5c2f1d15997bbad58557a29f,
   0x2056b61a624a856030a66e540f7a878f418adf12317d378869140919a33d02f6,
   0x38df7ffa7f9be7b2e80f05da1af774693bb3f59d13c3570b242096fccc6b1601,
   0x35b15b6c4c7bf09e1d9eebea32d2c9abe4fd1abd978480c637aa42b430e35637,
   0x255267e1ead997f166dcf53f0d0cd7e69a8199a11950ceb2515f8f8667d06763],
  [0x3fd6bd225026a4673ee244b3ba4e49f9ff5dddea1238c4db69e1bf5d88a85020,
   0x18b0ac7cd1768b7ef36fb59451604c1b87edbb7be465af86983ed2e307114f70,
   0x169490fd68ea8678d585596c2cedcd157767062e7a91115cb64df1abd09da375,
   0x3ce58242022a6bb51b45e871f6c68f3d3c7bd60bf73f4bb0fcaac1c4b987c234,
   0x1f166ca14af9001b481311163ecd46898f66757f0ab045676274cda5729da866],
  [0x390fdaad6be57e25e480b9a1a48e44f8231b35fa1cb288f4ed35b88d2acb132a,
   0x249bb5738a37b9f3d914d26cb2038f59dd8d17e01ff968f368a784b22cfa8099,
   0x0137588e8f832c5f44f5f338171aa5bebd919ef5b5cf94d52aec33658d1a079b,
   0x205e4a97730847eea3904ecddeb4d29245f0c09d5509e26e16ebddcd302c9712,
   0x22586496651bd86ac3882eec58bf50319d7d8df73f59856d5d6080b8bbd67ea4],
  [0x0e7c21db1a6975ce918d67710c2b8a363b85e9418ceaa52787ce3f0ebd407cf9,
   0x06e1e30cc080adc87a56811f5101923d9ac8070c83d1ae4d8b6c81890ee83601,
   0x1471d6bc5b2edb182f77823d4b090ed736a4504c32513ae81dab54393367e8ff,
   0x0210e9cb6e4f24230a0eac00a0729d7516a6b2cb171370fb289d25c6b209c5de,
   0x1ac44c8254d5162184913e8cd9ef6b89df7bdb4516435630e61d709e78fc6def],
  [0x0d832521b07b0122a545c975d4c43a6494eb1e3301b0598f61b4319b433c7426,
   0x3d9264ab59d3bc0ee65358df1bb6e3e8aff1dc5f61274455916ab8b4bdd77d4b,
   0x3c2f763ff626c1f44aeb32e6f66962780eded29579fc479c468dea009920b0ce,
   0x3b05e1dfb62e6183db0f77a4305e2359a0249dbdde5afb8dbc0e38df00a1ab83,
   0x137eb702442fb559ed1890f8e1acefe1ebf6b47ca7ea2dd67cfe16d4b6353943],
  [0x1be35ead720f7be25a021ac15b507b0ee389440fb49924b720840932d6882a8d,
   0x0bf16055e3ac1715eac8b8a5d848182b97a4eb2f560c1ae08480546f2983159b,
   0x126d57e9614285b1ffbccd757d8d7a38c157780a09b57b86070be05ddafe8f69,
   0x2b5013057a5fb463cfe24b8fc0f4341afc46bda79e6a062ac49f299f5ba1d967,
   0x1a874db36d16026a0e26dd822a05f650507ab1a6ce7feb9409301a9b2898f70f],
  [0x08ea85088cacfcf3ec0f1c4d2028ccbeb11230795ebde13cf00a7e7a5ac92b15,
   0x2120f8ec3c130fb12afa97805e3f381925c1ee487d22c1a7d03f6e9395aac9dc,
   0x0750cc4df6ec13bf1ba1d67693fc2e6e7e2d352f80045c402a0e9119c490a144,
   0x32e727bb094d9d9ed34e0c5f20a49dcc1f8f25f5866e793e16fd52c55718e3c1,
   0x0c8041d6664b8b940d99f69c47fa9b13ee22591bf9920d07034a74adfaa956d7],
  [0x111f69750239d03f0df8ea698056b0fd5137d3f237c6eeb26a5714449a9b624d,
   0x350cd38f36c54ab8b46509ae18c3e9b611cf9b5e26850c295690c96033bb51de,
   0x0d99ddaa8bc8e3ec5d4700800d65d8c78f6051bf3e709bb6fe2330f71dcfaa1b,
   0x16caead4108917e55aa7b7293cb47d515669961866be3d84504a4714c7d60d1e,
   0x1a63e1dc65f29060863811b5e0b8af942bc047794ff29e066fb937ea6add2723],
  [0x1b73e6b0021c00d106e981c89b539eb80b6bfa3c397443a0b33e0acb50927d0a,
   0x3dcd15cfd9be6c79d4a52877374636e0214fe726292b3894ad33d9825398ec32,
   0x029ff1ab6e959257b923a40e512eedf525bf95c5f737695c983505974c9fa25d,
   0x31505a11ebbfb48313377c7ae4b14c8047b71560f4d61be53060fae9cb3a2322,
   0x042ebe3bd4303f4fe1c4e8d46c206c64eaf6cc10a4bf9cba838bafa343aa2e67],
  [0x3cb2f5025ddb45ab31b267fa9227aa7444b4e5253e198314198f1b4f43444f0f,
   0x19f6499ab5446924092485b02a61ab296e5225c622a912eb1c7a7bf15e762830,
   0x0a5c26a918ff9594e7d8aba27f6d421ffe18af6d5e8e20303af0f368eca76d7d,
   0x2100860831b1e3e1865ff7fe3f4244ea10203824e6554840b932ed4a05b86bee,
   0x068372fb992c9daddf55c71a879acf50eab1b7b71abc8605c636693069b5689d],
  [0x0ed584c1ba2fb9d8fbd56ee5fc5770e932b240e1976555721b083daef83ed386,
   0x3a37e1e7932fbac8b8f7fdcdf69d37c962c111b791d1c393433b1ef17f5b1bf3,
   0x12c2620a3a3b8d68809611cb5deb6c955ce0ba52f4bc55256563d96f13991b62,
   0x1ab1bfb21101b22ae66c1325ba82d93028c28e5872e5629f6d54278d6a643ad1,
   0x1e3c314e8eec1ed0feb541d65c4b0827b4805c8cf6be1b1c72ad791fc415261c],
  [0x3587420733a2392d112360b013c01c97d3656a44df245ee471074b6726fdc9a3,
   0x26d4f703f88c1334e60bee0170b3918ffc2d5af935dca8c6d2c9ed857898d537,
   0x12d4e13c58690a33b8b7e94cefdde5677b9802c47e235b4a20ad8cedc42b2134,
   0x3e1e392f1996e0d258fcdcf4365051ed9475a21be534061238b292fbf0eff41b,
   0x0d54531158876344a8e25a2b274161414ec81e049710e680a9bdb35d9aa5c991],
  [0x1c32a2684c2d9baed7dfe6433482f94db58d5ea69a5c1cca4fde1b464964c847,
   0x06e24d4af67f6924de8a0b350930b6fc817e6d3a50d52cf424310db9692fbb81,
   0x3839c954d7eb41fe53499fd8b34aed1dcfdfcf62fc81a09289c778ab765ba6e7,
   0x18cacf1e579ca1fa61772ff1ed698bc3eaa4a9ca3393f7d59a27e5e0360a9fed,
   0x278db8efc2b2d3de7bd3f86e1c78f8ba1e2a8c2be754533c13324323f409c89a],
  [0x120a6340144cba7b18b2226bd06c8b6b63139e2e6a98f75aa1a588dea938db06,
   0x0cfafac6df38d6937431a7def223ae4fb40ad8b035b0b6a041b3a768de66b0e1,
   0x33bf1cf47da964f4c10d9a0202d5e0ecff1d1daf8d82f93dcc64f30a2e491f6f,
   0x16dbcc3dd87bc9a0eea74c5755d8d9d03e9e018ef15be76f11806d39f9f9ea75,
   0x22cab9ea0e33259f42ac327810e009830c470a88a249257e3144d388f05b93c0],
  [0x3b07825bc77678f6bafb7b76e722f468c0a52e83a22fe89c2486288dfb6fa461,
   0x20aa092308c1f1e10e7265b879ce4d75237495422f4b757ced799a4d58ef7bb1,
   0x256f24ae0fd9a274c7c05abb6da9dc97a828681d21745b3990dc9585aaf88da7,
   0x18fdc93b41e3f10000844685ed8ad01a85f8e458772a6cc9ff4e8bb8a2958f68,
   0x1d29d0f900c2109eb61435caff3f93c34258691f697421b4700654951c2be677],
  [0x34048338d09dfd7fa188e4ee17d1e46023c3e7f78057e13d6f72af3ebbcf6be2,
   0x379cfb439c72745515acd8d59e65b96de343f300e6111c19faf9cf9428c0e843,
   0x32bfe1a63a1275be3e9fe4004d1b6e4c36b865dd7c1f711cb8b0ab15bdb1dc87,
   0x3fa94dcaaf1103ff94d85de14902f751d60e542192f6d022e0debd46a96b97de,
   0x38cf95ab105b5979c2c1a330a2efd389983980a85634d5118e0cca85fb1a2e3d],
  [0x0393e36e4c748e47fac0851dc3b41ec9a06dd1d1ce87cf46b7be2b5278901abc,
   0x07f8a0322840a26a0917b2d4f7249288179b266489348791daca2ac7905950f1,
   0x2c3c2fcd1417fdf9972d86755e78935d5905f162d5b8ff06398a47414e334001,
   0x1e730d269de7dd8ea3989be2d73c89e4ab3d7732a323752f9744fc2fe1e59a84,
   0x33f249f291e5926971ceb80c91d2c0d5aa07631820370a9420b579f24520ee70],
  [0x3f7fead9cdc995809fdcd318bfbdd104307c116e1f63b73cce81c2eed6fdce90,
   0x34474ec8afa01785e90ba9b66ad3bce6f3b6f85f0a0fe65eb2257e81a7553136,
   0x0f5127b0c7afff112ff5acc80c853b9224a68441618b7fce50af19810fafd334,
   0x035e5ec5603384264a59ca841c80bb5f646b7a39375b63ce32d3acc488f5f878,
   0x32feee87f9ebef1bf47d969c3ac916a588949f02d44fcc1964dd1eb0833f3dfe],
  [0x060e6fc44e805cfb56fac96fbded67f60d1c9019404ff9673c4773125a763069,
   0x219e20b451a3c3168639b63386182e15c682c5ebcb802d3b5378c0cc4b8b657e,
   0x34b3e46ffb762a8109902597a8c3a571b456b6f78df5a38587afe85423c49ce2,
   0x0d65fc7a5971b3312834884beee026a00bcebfbb59f4fd887cecf6114c8e4206,
   0x2f2df8353da62f1f36126f7a78bbd59d3f300e76264771f95f902fae051ef7d0],
  [0x004b5c54719c66d341fb578e9595688a2175b13293bf5faeb9aa2053bbb7bdbd,
   0x168699da09242e46547a4e88d267e2fc2fa88f51488f53f78c1c273fc53047ae,
   0x2ae48e44aa8f2939e37b005025d73782fa706e4fd061e825e30c0f185d8b4a7f,
   0x0edd0cc3fc6899188dce747a4d6b2683e7f03c67ba237dc67728d1790cfe06a4,
   0x2700bc92117958f19ffc6098a7b4703ea19ed8d2e4ebed9c74b093fea2933cb1],
  [0x084beb81de709130fde029714282307e5db55418f85ae0c207aaad3551b6b0d4,
   0x04ba8678947c40d9752755b417368ce9471e966e08f38b2e8f9b822f164eb1d8,
   0x1c845c51d3ce5b413a6b176f78e16bd0cd419a96dd4ecf0cb0393a8a502a1a6c,
   0x1ccb571d6fe44e8c7908ec4d46d17ba77673bdc7e8d461bf64b92f8bc5f808a7,
   0x2969b72da0552359faedc5cfd9ccf72de0bd9ef69514821964845bad93b7a173],
  [0x07fb25e4e409e6395df58c0c05d547b4246910ee5aef11a4cfc49f1c67b88c2d,
   0x306b047218a42b0664e8ffba68295b63550f8350fd28bc74b88b222306b0c3ef,
   0x3d68fff3bf9efb9b1f4e8ee543ea0298383078756910b1c4e6a8767169c46650,
   0x0f6b72dac34c69bfc524082e6a4e8e339f7ff3556eb504f5426af2a157e5d30b,
   0x0cf3f4d10a4c257b36d2095515b6d7b2801fb7fd940a7a8fc806454f5e96c0dc],
  [0x3cdcd054e949fcbfdf11dfd42b4372af8e1f676e0424bfefad23c32031e07f4a,
   0x14e2b2c239484dd070be07ad1aaae2cce4bf92903458eb032cf22d565a967cdb,
   0x1681d8a9a57214ee09958c75dcaf07b4a9f3d7cfddd088764537c583d7161a71,
   0x1863ea5ef1baa900b9067c0aa354953f4006a1a28cea8612c7fb6f122c3fc2f3,
   0x2b9ae772154d7baa05b76505080c39ff8344beae1b2e31f4610fd8ae026ebbca],
  [0x39a411e51c893190787262be50188b0630d89ba5cefaf137a00472a94917d7aa,
   0x058ba23298c79c79df8b7f8b9247a7d2a42da3c9ea2a68792d2c365f9b23811e,
   0x34dc6bd73e695449956391f588714729dc3fa15b164953b81aebc5fab39e1c32,
   0x03756713d30bf1b331c0c49fcea276b1fef7d1815150ad8919fcefe1687c0f6f,
   0x2bced940e54f8a98b9e44aa6d68bfa3628f378bea73f0fdc231bcef5b80a6ca5],
  [0x17c3300d1a39e83f4a578f92da409229ba071a29bba07ef597ed93970a1cf9b2,
   0x34dfe9de6ac6129d8549ee5cdb92395afc361a406184d2d1dbe84399923f6f69,
   0x2ebe3a38176369e82420fcd79faa116543e83d191a733ccdab75fea295d5e8ea,
   0x31a5617a0be95548532d636c9c9e4261cff82eb13629ec3519ce54200bbbdbc3,
   0x0dc4a92e0ed7b2257bacf5c88635a4e71b30a958189f39b8de0aa82e8420ed3b],
  [0x391aa9e950f9b0a7261e5174e32658265370689fb4ff0b4e68ae07f800d607f0,
   0x2cdde808356a14d219bb8710271c53b57199f252eabeddd3ba908ada1a6c6f20,
   0x3c455b1261288b16d6e2cbdb0e5dd23a0d3c11f3b2cbf0813ddd0bd85167723d,
   0x08522989d97a572642169b6012ec5fddb1ee4d7323b0364cf8c26fc248d9d444,
   0x1ae81dcf9214d0ebee4318426888837b663706356d237c0505f474bcd325446d],
  [0x3f0fc0913f94d0a66e190926bc394f333be5b89a8304a47f5c366ed86d4d44b6,
   0x2a2f93868209f3ba48eb471cedb2f2cacca1a8f007a908095c5a51ec99f61d05,
   0x34a3bd354bbc7271cc161edeae2988a094bac24032123706bc10d035a3292ae6,
   0x08b4971d4224074a5820ab601b9203bb7b8414f3abb9df6dbe245a2eadb4183b,
   0x03de34a7d5476efdedbadbc3888aaabe655e3a2ef1b9808d445abafb6b223a14]]

/-- `MDS_MATRIX`, crates/ragu_pasta/src/poseidon_fp.rs:476-512. -/
def mdsFp : List (List ℕ) := [
  [0x0e4b3540d4d73fa420f1851a6740eddbd600c9ab0ad8d5b4dcf64f04ffb374c6,
   0x3fe7ecb7e78834870cdce4b908a2fb807b03af17cded80294c0c030880410ed4,
   0x1e58e74d5d29b520e5fd248e6871693397c6de26fa449684f03b70a513fcbca0,
   0x177c74dbeb98484b40187696c94630970970a35225a0c760651f0149b0ada929,
   0x036dd2f32bb0f9f2424c29c0f5ca90562d91d016a08b76dbc6677647a1d2490f],
  [0x36e9c5b57d91e1099ae5945691c1140f3d243defade21a44cc86377bed814e0e,
   0x34360a4516dabde9c2024e8e83a6218ba706fb105cf883be0be46694a6c02224,
   0x089a2e44b84e120074565a78876fe8d5cb0759a57de3ccc0cc1213067667348b,
   0x3f612bb351d01dcb9ddd4569901f76f11bd48466cd16e26b628d533f895db39c,
   0x3036f6a9d84d21b3fef073f7a187030d1692d3aa50809c57403c9aeae5901bf7],
  [0x060704c074ec70c860001c721cb3d7ef106f1bb6fbb0030782284c88344835e5,
   0x151de8e3e68f37e82a01290bf38ae29e9b5e809f540793e08e3898fd992e9df6,
   0x288ab5e71486d5db03d20e916c2fa9327df595eb925e4c0c32c70cbc0706abee,
   0x240077f7f8019bf67835fbcec8ca198a3fa6e67c0cee8d92f21e8706a91a466f,
   0x3a3baec0378054ade39ebf2ed0c15a6ebd4e4f3b1d8281c4a375407716963dd9],
  [0x2e1769ab643da4216ce8f0cc866c3e19315397b361955dd7250f9bd7d1c89d09,
   0x2cd174268b7341924fee1d3ff9265edecf4b2fece596f2dee80a8ce37541d4a3,
   0x32f8aadeaaa983881357e98128c7bff8b2330d073c44ba12f50ce55b5c0beac4,
   0x14bbd67e39408bd0ef0c1ebe7790cd4ee3cd6d8e850f18dbc6a573c88adc633d,
   0x379bb200eadfe1fa7f1d6281d128b575f0a955ec40df8d5a0e854d6fe4e251f7],
  [0x3a2d10c729dd5d7548291dff7f4d60dfcad604b569f3c51ea74c26d36e49aa2b,
   0x388230e3fdf524612c1dd64615516498c3caf75a7ead6d8ab6e1d8e98f2db8ae,
   0x35965852fe36eb39c8813d8f07f3286c7e49b8d338137d7ba3a22fd47d91acbe,
   0x0c06958f1f59ed5d58dacde68cba2ea0c91f3d8308328d8d386621317cd52035,
   0x12ff6a42e907002302fcb9195191d21a59d960b63dbaf20742fcc35e3acf1b21]]

/-- `PoseidonFp`, crates/ragu_pasta/src/poseidon_fp.rs:10-24. A literal that `repr256!` rejects
would be a compile-time error; here it would become zero. -/
def poseidonFp : PoseidonParams Fp where
  T := 5
  rate := 4
  fullRounds := 8
  partialRounds := 56
  alpha := 5
  roundConstants := roundConstantsFp.map fun row => row.map fun n => (literal p n).getD 0
  mds := mdsFp.map fun row => row.map fun n => (literal p n).getD 0

end Ragu.Pasta
