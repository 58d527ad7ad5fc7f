import Verif.OnnxCall.Spec

/-! Two of the ONNX models that come with the tool as values: the nodes, and the shapes of the inputs, results, hidden and constant tensors.  Attributes that are no numbers are `other`.
Generated from the files with a script that reads the encoding of the format. -/

namespace Verif.Shipped

open Onnx (OModel)
open OnnxCall (Op)
open OnnxModel (OpNode)

/-- The tensors of /repo/zigzag/inputs/workload/alexnet.onnx. -/
def alexnetTensors : OModel where
  inputs := [("data_0", [1, 3, 224, 224])]
  outputs := [("prob_1", [1, 1000])]
  hidden := [("conv1_1", [1, 96, 54, 54]),
    ("conv1_2", [1, 96, 54, 54]),
    ("norm1_1", [1, 96, 54, 54]),
    ("pool1_1", [1, 96, 26, 26]),
    ("conv2_1", [1, 256, 26, 26]),
    ("conv2_2", [1, 256, 26, 26]),
    ("norm2_1", [1, 256, 26, 26]),
    ("pool2_1", [1, 256, 12, 12]),
    ("conv3_1", [1, 384, 12, 12]),
    ("conv3_2", [1, 384, 12, 12]),
    ("conv4_1", [1, 384, 12, 12]),
    ("conv4_2", [1, 384, 12, 12]),
    ("conv5_1", [1, 256, 12, 12]),
    ("conv5_2", [1, 256, 12, 12]),
    ("pool5_1", [1, 256, 6, 6]),
    ("OC2_DUMMY_0", [1, 9216]),
    ("fc6_1", [1, 4096]),
    ("fc6_2", [1, 4096]),
    ("fc6_3", [1, 4096]),
    ("fc7_1", [1, 4096]),
    ("fc7_2", [1, 4096]),
    ("fc7_3", [1, 4096]),
    ("fc8_1", [1, 1000])]
  inits := [("conv1_b_0", [96]),
    ("conv1_w_0", [96, 3, 11, 11]),
    ("conv2_b_0", [256]),
    ("conv2_w_0", [256, 48, 5, 5]),
    ("conv3_b_0", [384]),
    ("conv3_w_0", [384, 256, 3, 3]),
    ("conv4_b_0", [384]),
    ("conv4_w_0", [384, 192, 3, 3]),
    ("conv5_b_0", [256]),
    ("conv5_w_0", [256, 192, 3, 3]),
    ("fc6_b_0", [4096]),
    ("fc6_w_0", [4096, 9216]),
    ("fc7_b_0", [4096]),
    ("fc7_w_0", [4096, 4096]),
    ("fc8_b_0", [1000]),
    ("fc8_w_0", [1000, 4096]),
    ("OC2_DUMMY_1", [2]),
    ("46", []),
    ("48", [])]

/-- The nodes of /repo/zigzag/inputs/workload/alexnet.onnx. -/
def alexnetNodes : List OpNode :=
  [⟨"Conv", "Op0", ["data_0", "conv1_w_0", "conv1_b_0"], ["conv1_1"], [("strides", .ints [4, 4]), ("pads", .ints [0, 0, 0, 0]), ("kernel_shape", .ints [11, 11])]⟩,
   ⟨"Relu", "Op1", ["conv1_1"], ["conv1_2"], []⟩,
   ⟨"LRN", "Op2", ["conv1_2"], ["norm1_1"], [("size", .int 5), ("alpha", .other), ("beta", .other), ("bias", .other)]⟩,
   ⟨"MaxPool", "Op3", ["norm1_1"], ["pool1_1"], [("strides", .ints [2, 2]), ("pads", .ints [0, 0, 0, 0]), ("kernel_shape", .ints [3, 3])]⟩,
   ⟨"Conv", "Op4", ["pool1_1", "conv2_w_0", "conv2_b_0"], ["conv2_1"], [("group", .int 2), ("strides", .ints [1, 1]), ("pads", .ints [2, 2, 2, 2]), ("kernel_shape", .ints [5, 5])]⟩,
   ⟨"Relu", "Op5", ["conv2_1"], ["conv2_2"], []⟩,
   ⟨"LRN", "Op6", ["conv2_2"], ["norm2_1"], [("size", .int 5), ("alpha", .other), ("beta", .other), ("bias", .other)]⟩,
   ⟨"MaxPool", "Op7", ["norm2_1"], ["pool2_1"], [("strides", .ints [2, 2]), ("pads", .ints [0, 0, 0, 0]), ("kernel_shape", .ints [3, 3])]⟩,
   ⟨"Conv", "Op8", ["pool2_1", "conv3_w_0", "conv3_b_0"], ["conv3_1"], [("strides", .ints [1, 1]), ("pads", .ints [1, 1, 1, 1]), ("kernel_shape", .ints [3, 3])]⟩,
   ⟨"Relu", "Op9", ["conv3_1"], ["conv3_2"], []⟩,
   ⟨"Conv", "Op10", ["conv3_2", "conv4_w_0", "conv4_b_0"], ["conv4_1"], [("group", .int 2), ("strides", .ints [1, 1]), ("pads", .ints [1, 1, 1, 1]), ("kernel_shape", .ints [3, 3])]⟩,
   ⟨"Relu", "Op11", ["conv4_1"], ["conv4_2"], []⟩,
   ⟨"Conv", "Op12", ["conv4_2", "conv5_w_0", "conv5_b_0"], ["conv5_1"], [("group", .int 2), ("strides", .ints [1, 1]), ("pads", .ints [1, 1, 1, 1]), ("kernel_shape", .ints [3, 3])]⟩,
   ⟨"Relu", "Op13", ["conv5_1"], ["conv5_2"], []⟩,
   ⟨"MaxPool", "Op14", ["conv5_2"], ["pool5_1"], [("strides", .ints [2, 2]), ("pads", .ints [0, 0, 1, 1]), ("kernel_shape", .ints [3, 3])]⟩,
   ⟨"Reshape", "Op15", ["pool5_1", "OC2_DUMMY_1"], ["OC2_DUMMY_0"], []⟩,
   ⟨"Gemm", "Op16", ["OC2_DUMMY_0", "fc6_w_0", "fc6_b_0"], ["fc6_1"], [("transB", .int 1)]⟩,
   ⟨"Relu", "Op17", ["fc6_1"], ["fc6_2"], []⟩,
   ⟨"Dropout", "Op18", ["fc6_2", "46"], ["fc6_3", "_fc6_mask_1"], []⟩,
   ⟨"Gemm", "Op19", ["fc6_3", "fc7_w_0", "fc7_b_0"], ["fc7_1"], [("transB", .int 1)]⟩,
   ⟨"Relu", "Op20", ["fc7_1"], ["fc7_2"], []⟩,
   ⟨"Dropout", "Op21", ["fc7_2", "48"], ["fc7_3", "_fc7_mask_1"], []⟩,
   ⟨"Gemm", "Op22", ["fc7_3", "fc8_w_0", "fc8_b_0"], ["fc8_1"], [("transB", .int 1)]⟩,
   ⟨"Softmax", "Op23", ["fc8_1"], ["prob_1"], []⟩]

/-- What the nodes compute. -/
def alexnetOps : List (Option Op) :=
  [some (.conv ⟨1, 3, 224, 224, 96, 1, 11, 11, 4, 4, 1, 1, 0, 0, 0, 0⟩),
   none,
   none,
   none,
   some (.conv ⟨1, 96, 26, 26, 256, 2, 5, 5, 1, 1, 1, 1, 2, 2, 2, 2⟩),
   none,
   none,
   none,
   some (.conv ⟨1, 256, 12, 12, 384, 1, 3, 3, 1, 1, 1, 1, 1, 1, 1, 1⟩),
   none,
   some (.conv ⟨1, 384, 12, 12, 384, 2, 3, 3, 1, 1, 1, 1, 1, 1, 1, 1⟩),
   none,
   some (.conv ⟨1, 384, 12, 12, 256, 2, 3, 3, 1, 1, 1, 1, 1, 1, 1, 1⟩),
   none,
   none,
   none,
   some (.product [] 1 9216 4096),
   none,
   none,
   some (.product [] 1 4096 4096),
   none,
   none,
   some (.product [] 1 4096 1000),
   none]

/-- The tensors of /repo/zigzag/inputs/workload/resnet18.onnx. -/
def resnet18Tensors : OModel where
  inputs := [("input.1", [1, 3, 224, 224])]
  outputs := [("191", [1, 1000])]
  hidden := [("/conv1/Conv_output_0", [1, 64, 112, 112]),
    ("/relu/Relu_output_0", [1, 64, 112, 112]),
    ("/maxpool/MaxPool_output_0", [1, 64, 56, 56]),
    ("/layer1/layer1.0/conv1/Conv_output_0", [1, 64, 56, 56]),
    ("/layer1/layer1.0/relu/Relu_output_0", [1, 64, 56, 56]),
    ("/layer1/layer1.0/conv2/Conv_output_0", [1, 64, 56, 56]),
    ("/layer1/layer1.0/Add_output_0", [1, 64, 56, 56]),
    ("/layer1/layer1.0/relu_1/Relu_output_0", [1, 64, 56, 56]),
    ("/layer1/layer1.1/conv1/Conv_output_0", [1, 64, 56, 56]),
    ("/layer1/layer1.1/relu/Relu_output_0", [1, 64, 56, 56]),
    ("/layer1/layer1.1/conv2/Conv_output_0", [1, 64, 56, 56]),
    ("/layer1/layer1.1/Add_output_0", [1, 64, 56, 56]),
    ("/layer1/layer1.1/relu_1/Relu_output_0", [1, 64, 56, 56]),
    ("/layer2/layer2.0/conv1/Conv_output_0", [1, 128, 28, 28]),
    ("/layer2/layer2.0/relu/Relu_output_0", [1, 128, 28, 28]),
    ("/layer2/layer2.0/conv2/Conv_output_0", [1, 128, 28, 28]),
    ("/layer2/layer2.0/downsample/downsample.0/Conv_output_0", [1, 128, 28, 28]),
    ("/layer2/layer2.0/Add_output_0", [1, 128, 28, 28]),
    ("/layer2/layer2.0/relu_1/Relu_output_0", [1, 128, 28, 28]),
    ("/layer2/layer2.1/conv1/Conv_output_0", [1, 128, 28, 28]),
    ("/layer2/layer2.1/relu/Relu_output_0", [1, 128, 28, 28]),
    ("/layer2/layer2.1/conv2/Conv_output_0", [1, 128, 28, 28]),
    ("/layer2/layer2.1/Add_output_0", [1, 128, 28, 28]),
    ("/layer2/layer2.1/relu_1/Relu_output_0", [1, 128, 28, 28]),
    ("/layer3/layer3.0/conv1/Conv_output_0", [1, 256, 14, 14]),
    ("/layer3/layer3.0/relu/Relu_output_0", [1, 256, 14, 14]),
    ("/layer3/layer3.0/conv2/Conv_output_0", [1, 256, 14, 14]),
    ("/layer3/layer3.0/downsample/downsample.0/Conv_output_0", [1, 256, 14, 14]),
    ("/layer3/layer3.0/Add_output_0", [1, 256, 14, 14]),
    ("/layer3/layer3.0/relu_1/Relu_output_0", [1, 256, 14, 14]),
    ("/layer3/layer3.1/conv1/Conv_output_0", [1, 256, 14, 14]),
    ("/layer3/layer3.1/relu/Relu_output_0", [1, 256, 14, 14]),
    ("/layer3/layer3.1/conv2/Conv_output_0", [1, 256, 14, 14]),
    ("/layer3/layer3.1/Add_output_0", [1, 256, 14, 14]),
    ("/layer3/layer3.1/relu_1/Relu_output_0", [1, 256, 14, 14]),
    ("/layer4/layer4.0/conv1/Conv_output_0", [1, 512, 7, 7]),
    ("/layer4/layer4.0/relu/Relu_output_0", [1, 512, 7, 7]),
    ("/layer4/layer4.0/conv2/Conv_output_0", [1, 512, 7, 7]),
    ("/layer4/layer4.0/downsample/downsample.0/Conv_output_0", [1, 512, 7, 7]),
    ("/layer4/layer4.0/Add_output_0", [1, 512, 7, 7]),
    ("/layer4/layer4.0/relu_1/Relu_output_0", [1, 512, 7, 7]),
    ("/layer4/layer4.1/conv1/Conv_output_0", [1, 512, 7, 7]),
    ("/layer4/layer4.1/relu/Relu_output_0", [1, 512, 7, 7]),
    ("/layer4/layer4.1/conv2/Conv_output_0", [1, 512, 7, 7]),
    ("/layer4/layer4.1/Add_output_0", [1, 512, 7, 7]),
    ("/layer4/layer4.1/relu_1/Relu_output_0", [1, 512, 7, 7]),
    ("/avgpool/GlobalAveragePool_output_0", [1, 512, 1, 1]),
    ("/Flatten_output_0", [1, 512])]
  inits := [("fc.weight", [1000, 512]),
    ("fc.bias", [1000]),
    ("onnx::Conv_193", [64, 3, 7, 7]),
    ("onnx::Conv_194", [64]),
    ("onnx::Conv_196", [64, 64, 3, 3]),
    ("onnx::Conv_197", [64]),
    ("onnx::Conv_199", [64, 64, 3, 3]),
    ("onnx::Conv_200", [64]),
    ("onnx::Conv_202", [64, 64, 3, 3]),
    ("onnx::Conv_203", [64]),
    ("onnx::Conv_205", [64, 64, 3, 3]),
    ("onnx::Conv_206", [64]),
    ("onnx::Conv_208", [128, 64, 3, 3]),
    ("onnx::Conv_209", [128]),
    ("onnx::Conv_211", [128, 128, 3, 3]),
    ("onnx::Conv_212", [128]),
    ("onnx::Conv_214", [128, 64, 1, 1]),
    ("onnx::Conv_215", [128]),
    ("onnx::Conv_217", [128, 128, 3, 3]),
    ("onnx::Conv_218", [128]),
    ("onnx::Conv_220", [128, 128, 3, 3]),
    ("onnx::Conv_221", [128]),
    ("onnx::Conv_223", [256, 128, 3, 3]),
    ("onnx::Conv_224", [256]),
    ("onnx::Conv_226", [256, 256, 3, 3]),
    ("onnx::Conv_227", [256]),
    ("onnx::Conv_229", [256, 128, 1, 1]),
    ("onnx::Conv_230", [256]),
    ("onnx::Conv_232", [256, 256, 3, 3]),
    ("onnx::Conv_233", [256]),
    ("onnx::Conv_235", [256, 256, 3, 3]),
    ("onnx::Conv_236", [256]),
    ("onnx::Conv_238", [512, 256, 3, 3]),
    ("onnx::Conv_239", [512]),
    ("onnx::Conv_241", [512, 512, 3, 3]),
    ("onnx::Conv_242", [512]),
    ("onnx::Conv_244", [512, 256, 1, 1]),
    ("onnx::Conv_245", [512]),
    ("onnx::Conv_247", [512, 512, 3, 3]),
    ("onnx::Conv_248", [512]),
    ("onnx::Conv_250", [512, 512, 3, 3]),
    ("onnx::Conv_251", [512])]

/-- The nodes of /repo/zigzag/inputs/workload/resnet18.onnx. -/
def resnet18Nodes : List OpNode :=
  [⟨"Conv", "/conv1/Conv", ["input.1", "onnx::Conv_193", "onnx::Conv_194"], ["/conv1/Conv_output_0"], [("dilations", .ints [1, 1]), ("group", .int 1), ("kernel_shape", .ints [7, 7]), ("pads", .ints [3, 3, 3, 3]), ("strides", .ints [2, 2])]⟩,
   ⟨"Relu", "/relu/Relu", ["/conv1/Conv_output_0"], ["/relu/Relu_output_0"], []⟩,
   ⟨"MaxPool", "/maxpool/MaxPool", ["/relu/Relu_output_0"], ["/maxpool/MaxPool_output_0"], [("ceil_mode", .int 0), ("kernel_shape", .ints [3, 3]), ("pads", .ints [1, 1, 1, 1]), ("strides", .ints [2, 2])]⟩,
   ⟨"Conv", "/layer1/layer1.0/conv1/Conv", ["/maxpool/MaxPool_output_0", "onnx::Conv_196", "onnx::Conv_197"], ["/layer1/layer1.0/conv1/Conv_output_0"], [("dilations", .ints [1, 1]), ("group", .int 1), ("kernel_shape", .ints [3, 3]), ("pads", .ints [1, 1, 1, 1]), ("strides", .ints [1, 1])]⟩,
   ⟨"Relu", "/layer1/layer1.0/relu/Relu", ["/layer1/layer1.0/conv1/Conv_output_0"], ["/layer1/layer1.0/relu/Relu_output_0"], []⟩,
   ⟨"Conv", "/layer1/layer1.0/conv2/Conv", ["/layer1/layer1.0/relu/Relu_output_0", "onnx::Conv_199", "onnx::Conv_200"], ["/layer1/layer1.0/conv2/Conv_output_0"], [("dilations", .ints [1, 1]), ("group", .int 1), ("kernel_shape", .ints [3, 3]), ("pads", .ints [1, 1, 1, 1]), ("strides", .ints [1, 1])]⟩,
   ⟨"Add", "/layer1/layer1.0/Add", ["/layer1/layer1.0/conv2/Conv_output_0", "/maxpool/MaxPool_output_0"], ["/layer1/layer1.0/Add_output_0"], []⟩,
   ⟨"Relu", "/layer1/layer1.0/relu_1/Relu", ["/layer1/layer1.0/Add_output_0"], ["/layer1/layer1.0/relu_1/Relu_output_0"], []⟩,
   ⟨"Conv", "/layer1/layer1.1/conv1/Conv", ["/layer1/layer1.0/relu_1/Relu_output_0", "onnx::Conv_202", "onnx::Conv_203"], ["/layer1/layer1.1/conv1/Conv_output_0"], [("dilations", .ints [1, 1]), ("group", .int 1), ("kernel_shape", .ints [3, 3]), ("pads", .ints [1, 1, 1, 1]), ("strides", .ints [1, 1])]⟩,
   ⟨"Relu", "/layer1/layer1.1/relu/Relu", ["/layer1/layer1.1/conv1/Conv_output_0"], ["/layer1/layer1.1/relu/Relu_output_0"], []⟩,
   ⟨"Conv", "/layer1/layer1.1/conv2/Conv", ["/layer1/layer1.1/relu/Relu_output_0", "onnx::Conv_205", "onnx::Conv_206"], ["/layer1/layer1.1/conv2/Conv_output_0"], [("dilations", .ints [1, 1]), ("group", .int 1), ("kernel_shape", .ints [3, 3]), ("pads", .ints [1, 1, 1, 1]), ("strides", .ints [1, 1])]⟩,
   ⟨"Add", "/layer1/layer1.1/Add", ["/layer1/layer1.1/conv2/Conv_output_0", "/layer1/layer1.0/relu_1/Relu_output_0"], ["/layer1/layer1.1/Add_output_0"], []⟩,
   ⟨"Relu", "/layer1/layer1.1/relu_1/Relu", ["/layer1/layer1.1/Add_output_0"], ["/layer1/layer1.1/relu_1/Relu_output_0"], []⟩,
   ⟨"Conv", "/layer2/layer2.0/conv1/Conv", ["/layer1/layer1.1/relu_1/Relu_output_0", "onnx::Conv_208", "onnx::Conv_209"], ["/layer2/layer2.0/conv1/Conv_output_0"], [("dilations", .ints [1, 1]), ("group", .int 1), ("kernel_shape", .ints [3, 3]), ("pads", .ints [1, 1, 1, 1]), ("strides", .ints [2, 2])]⟩,
   ⟨"Relu", "/layer2/layer2.0/relu/Relu", ["/layer2/layer2.0/conv1/Conv_output_0"], ["/layer2/layer2.0/relu/Relu_output_0"], []⟩,
   ⟨"Conv", "/layer2/layer2.0/conv2/Conv", ["/layer2/layer2.0/relu/Relu_output_0", "onnx::Conv_211", "onnx::Conv_212"], ["/layer2/layer2.0/conv2/Conv_output_0"], [("dilations", .ints [1, 1]), ("group", .int 1), ("kernel_shape", .ints [3, 3]), ("pads", .ints [1, 1, 1, 1]), ("strides", .ints [1, 1])]⟩,
   ⟨"Conv", "/layer2/layer2.0/downsample/downsample.0/Conv", ["/layer1/layer1.1/relu_1/Relu_output_0", "onnx::Conv_214", "onnx::Conv_215"], ["/layer2/layer2.0/downsample/downsample.0/Conv_output_0"], [("dilations", .ints [1, 1]), ("group", .int 1), ("kernel_shape", .ints [1, 1]), ("pads", .ints [0, 0, 0, 0]), ("strides", .ints [2, 2])]⟩,
   ⟨"Add", "/layer2/layer2.0/Add", ["/layer2/layer2.0/conv2/Conv_output_0", "/layer2/layer2.0/downsample/downsample.0/Conv_output_0"], ["/layer2/layer2.0/Add_output_0"], []⟩,
   ⟨"Relu", "/layer2/layer2.0/relu_1/Relu", ["/layer2/layer2.0/Add_output_0"], ["/layer2/layer2.0/relu_1/Relu_output_0"], []⟩,
   ⟨"Conv", "/layer2/layer2.1/conv1/Conv", ["/layer2/layer2.0/relu_1/Relu_output_0", "onnx::Conv_217", "onnx::Conv_218"], ["/layer2/layer2.1/conv1/Conv_output_0"], [("dilations", .ints [1, 1]), ("group", .int 1), ("kernel_shape", .ints [3, 3]), ("pads", .ints [1, 1, 1, 1]), ("strides", .ints [1, 1])]⟩,
   ⟨"Relu", "/layer2/layer2.1/relu/Relu", ["/layer2/layer2.1/conv1/Conv_output_0"], ["/layer2/layer2.1/relu/Relu_output_0"], []⟩,
   ⟨"Conv", "/layer2/layer2.1/conv2/Conv", ["/layer2/layer2.1/relu/Relu_output_0", "onnx::Conv_220", "onnx::Conv_221"], ["/layer2/layer2.1/conv2/Conv_output_0"], [("dilations", .ints [1, 1]), ("group", .int 1), ("kernel_shape", .ints [3, 3]), ("pads", .ints [1, 1, 1, 1]), ("strides", .ints [1, 1])]⟩,
   ⟨"Add", "/layer2/layer2.1/Add", ["/layer2/layer2.1/conv2/Conv_output_0", "/layer2/layer2.0/relu_1/Relu_output_0"], ["/layer2/layer2.1/Add_output_0"], []⟩,
   ⟨"Relu", "/layer2/layer2.1/relu_1/Relu", ["/layer2/layer2.1/Add_output_0"], ["/layer2/layer2.1/relu_1/Relu_output_0"], []⟩,
   ⟨"Conv", "/layer3/layer3.0/conv1/Conv", ["/layer2/layer2.1/relu_1/Relu_output_0", "onnx::Conv_223", "onnx::Conv_224"], ["/layer3/layer3.0/conv1/Conv_output_0"], [("dilations", .ints [1, 1]), ("group", .int 1), ("kernel_shape", .ints [3, 3]), ("pads", .ints [1, 1, 1, 1]), ("strides", .ints [2, 2])]⟩,
   ⟨"Relu", "/layer3/layer3.0/relu/Relu", ["/layer3/layer3.0/conv1/Conv_output_0"], ["/layer3/layer3.0/relu/Relu_output_0"], []⟩,
   ⟨"Conv", "/layer3/layer3.0/conv2/Conv", ["/layer3/layer3.0/relu/Relu_output_0", "onnx::Conv_226", "onnx::Conv_227"], ["/layer3/layer3.0/conv2/Conv_output_0"], [("dilations", .ints [1, 1]), ("group", .int 1), ("kernel_shape", .ints [3, 3]), ("pads", .ints [1, 1, 1, 1]), ("strides", .ints [1, 1])]⟩,
   ⟨"Conv", "/layer3/layer3.0/downsample/downsample.0/Conv", ["/layer2/layer2.1/relu_1/Relu_output_0", "onnx::Conv_229", "onnx::Conv_230"], ["/layer3/layer3.0/downsample/downsample.0/Conv_output_0"], [("dilations", .ints [1, 1]), ("group", .int 1), ("kernel_shape", .ints [1, 1]), ("pads", .ints [0, 0, 0, 0]), ("strides", .ints [2, 2])]⟩,
   ⟨"Add", "/layer3/layer3.0/Add", ["/layer3/layer3.0/conv2/Conv_output_0", "/layer3/layer3.0/downsample/downsample.0/Conv_output_0"], ["/layer3/layer3.0/Add_output_0"], []⟩,
   ⟨"Relu", "/layer3/layer3.0/relu_1/Relu", ["/layer3/layer3.0/Add_output_0"], ["/layer3/layer3.0/relu_1/Relu_output_0"], []⟩,
   ⟨"Conv", "/layer3/layer3.1/conv1/Conv", ["/layer3/layer3.0/relu_1/Relu_output_0", "onnx::Conv_232", "onnx::Conv_233"], ["/layer3/layer3.1/conv1/Conv_output_0"], [("dilations", .ints [1, 1]), ("group", .int 1), ("kernel_shape", .ints [3, 3]), ("pads", .ints [1, 1, 1, 1]), ("strides", .ints [1, 1])]⟩,
   ⟨"Relu", "/layer3/layer3.1/relu/Relu", ["/layer3/layer3.1/conv1/Conv_output_0"], ["/layer3/layer3.1/relu/Relu_output_0"], []⟩,
   ⟨"Conv", "/layer3/layer3.1/conv2/Conv", ["/layer3/layer3.1/relu/Relu_output_0", "onnx::Conv_235", "onnx::Conv_236"], ["/layer3/layer3.1/conv2/Conv_output_0"], [("dilations", .ints [1, 1]), ("group", .int 1), ("kernel_shape", .ints [3, 3]), ("pads", .ints [1, 1, 1, 1]), ("strides", .ints [1, 1])]⟩,
   ⟨"Add", "/layer3/layer3.1/Add", ["/layer3/layer3.1/conv2/Conv_output_0", "/layer3/layer3.0/relu_1/Relu_output_0"], ["/layer3/layer3.1/Add_output_0"], []⟩,
   ⟨"Relu", "/layer3/layer3.1/relu_1/Relu", ["/layer3/layer3.1/Add_output_0"], ["/layer3/layer3.1/relu_1/Relu_output_0"], []⟩,
   ⟨"Conv", "/layer4/layer4.0/conv1/Conv", ["/layer3/layer3.1/relu_1/Relu_output_0", "onnx::Conv_238", "onnx::Conv_239"], ["/layer4/layer4.0/conv1/Conv_output_0"], [("dilations", .ints [1, 1]), ("group", .int 1), ("kernel_shape", .ints [3, 3]), ("pads", .ints [1, 1, 1, 1]), ("strides", .ints [2, 2])]⟩,
   ⟨"Relu", "/layer4/layer4.0/relu/Relu", ["/layer4/layer4.0/conv1/Conv_output_0"], ["/layer4/layer4.0/relu/Relu_output_0"], []⟩,
   ⟨"Conv", "/layer4/layer4.0/conv2/Conv", ["/layer4/layer4.0/relu/Relu_output_0", "onnx::Conv_241", "onnx::Conv_242"], ["/layer4/layer4.0/conv2/Conv_output_0"], [("dilations", .ints [1, 1]), ("group", .int 1), ("kernel_shape", .ints [3, 3]), ("pads", .ints [1, 1, 1, 1]), ("strides", .ints [1, 1])]⟩,
   ⟨"Conv", "/layer4/layer4.0/downsample/downsample.0/Conv", ["/layer3/layer3.1/relu_1/Relu_output_0", "onnx::Conv_244", "onnx::Conv_245"], ["/layer4/layer4.0/downsample/downsample.0/Conv_output_0"], [("dilations", .ints [1, 1]), ("group", .int 1), ("kernel_shape", .ints [1, 1]), ("pads", .ints [0, 0, 0, 0]), ("strides", .ints [2, 2])]⟩,
   ⟨"Add", "/layer4/layer4.0/Add", ["/layer4/layer4.0/conv2/Conv_output_0", "/layer4/layer4.0/downsample/downsample.0/Conv_output_0"], ["/layer4/layer4.0/Add_output_0"], []⟩,
   ⟨"Relu", "/layer4/layer4.0/relu_1/Relu", ["/layer4/layer4.0/Add_output_0"], ["/layer4/layer4.0/relu_1/Relu_output_0"], []⟩,
   ⟨"Conv", "/layer4/layer4.1/conv1/Conv", ["/layer4/layer4.0/relu_1/Relu_output_0", "onnx::Conv_247", "onnx::Conv_248"], ["/layer4/layer4.1/conv1/Conv_output_0"], [("dilations", .ints [1, 1]), ("group", .int 1), ("kernel_shape", .ints [3, 3]), ("pads", .ints [1, 1, 1, 1]), ("strides", .ints [1, 1])]⟩,
   ⟨"Relu", "/layer4/layer4.1/relu/Relu", ["/layer4/layer4.1/conv1/Conv_output_0"], ["/layer4/layer4.1/relu/Relu_output_0"], []⟩,
   ⟨"Conv", "/layer4/layer4.1/conv2/Conv", ["/layer4/layer4.1/relu/Relu_output_0", "onnx::Conv_250", "onnx::Conv_251"], ["/layer4/layer4.1/conv2/Conv_output_0"], [("dilations", .ints [1, 1]), ("group", .int 1), ("kernel_shape", .ints [3, 3]), ("pads", .ints [1, 1, 1, 1]), ("strides", .ints [1, 1])]⟩,
   ⟨"Add", "/layer4/layer4.1/Add", ["/layer4/layer4.1/conv2/Conv_output_0", "/layer4/layer4.0/relu_1/Relu_output_0"], ["/layer4/layer4.1/Add_output_0"], []⟩,
   ⟨"Relu", "/layer4/layer4.1/relu_1/Relu", ["/layer4/layer4.1/Add_output_0"], ["/layer4/layer4.1/relu_1/Relu_output_0"], []⟩,
   ⟨"GlobalAveragePool", "/avgpool/GlobalAveragePool", ["/layer4/layer4.1/relu_1/Relu_output_0"], ["/avgpool/GlobalAveragePool_output_0"], []⟩,
   ⟨"Flatten", "/Flatten", ["/avgpool/GlobalAveragePool_output_0"], ["/Flatten_output_0"], [("axis", .int 1)]⟩,
   ⟨"Gemm", "/fc/Gemm", ["/Flatten_output_0", "fc.weight", "fc.bias"], ["191"], [("alpha", .other), ("beta", .other), ("transB", .int 1)]⟩]

/-- What the nodes compute. -/
def resnet18Ops : List (Option Op) :=
  [some (.conv ⟨1, 3, 224, 224, 64, 1, 7, 7, 2, 2, 1, 1, 3, 3, 3, 3⟩),
   none,
   none,
   some (.conv ⟨1, 64, 56, 56, 64, 1, 3, 3, 1, 1, 1, 1, 1, 1, 1, 1⟩),
   none,
   some (.conv ⟨1, 64, 56, 56, 64, 1, 3, 3, 1, 1, 1, 1, 1, 1, 1, 1⟩),
   none,
   none,
   some (.conv ⟨1, 64, 56, 56, 64, 1, 3, 3, 1, 1, 1, 1, 1, 1, 1, 1⟩),
   none,
   some (.conv ⟨1, 64, 56, 56, 64, 1, 3, 3, 1, 1, 1, 1, 1, 1, 1, 1⟩),
   none,
   none,
   some (.conv ⟨1, 64, 56, 56, 128, 1, 3, 3, 2, 2, 1, 1, 1, 1, 1, 1⟩),
   none,
   some (.conv ⟨1, 128, 28, 28, 128, 1, 3, 3, 1, 1, 1, 1, 1, 1, 1, 1⟩),
   some (.conv ⟨1, 64, 56, 56, 128, 1, 1, 1, 2, 2, 1, 1, 0, 0, 0, 0⟩),
   none,
   none,
   some (.conv ⟨1, 128, 28, 28, 128, 1, 3, 3, 1, 1, 1, 1, 1, 1, 1, 1⟩),
   none,
   some (.conv ⟨1, 128, 28, 28, 128, 1, 3, 3, 1, 1, 1, 1, 1, 1, 1, 1⟩),
   none,
   none,
   some (.conv ⟨1, 128, 28, 28, 256, 1, 3, 3, 2, 2, 1, 1, 1, 1, 1, 1⟩),
   none,
   some (.conv ⟨1, 256, 14, 14, 256, 1, 3, 3, 1, 1, 1, 1, 1, 1, 1, 1⟩),
   some (.conv ⟨1, 128, 28, 28, 256, 1, 1, 1, 2, 2, 1, 1, 0, 0, 0, 0⟩),
   none,
   none,
   some (.conv ⟨1, 256, 14, 14, 256, 1, 3, 3, 1, 1, 1, 1, 1, 1, 1, 1⟩),
   none,
   some (.conv ⟨1, 256, 14, 14, 256, 1, 3, 3, 1, 1, 1, 1, 1, 1, 1, 1⟩),
   none,
   none,
   some (.conv ⟨1, 256, 14, 14, 512, 1, 3, 3, 2, 2, 1, 1, 1, 1, 1, 1⟩),
   none,
   some (.conv ⟨1, 512, 7, 7, 512, 1, 3, 3, 1, 1, 1, 1, 1, 1, 1, 1⟩),
   some (.conv ⟨1, 256, 14, 14, 512, 1, 1, 1, 2, 2, 1, 1, 0, 0, 0, 0⟩),
   none,
   none,
   some (.conv ⟨1, 512, 7, 7, 512, 1, 3, 3, 1, 1, 1, 1, 1, 1, 1, 1⟩),
   none,
   some (.conv ⟨1, 512, 7, 7, 512, 1, 3, 3, 1, 1, 1, 1, 1, 1, 1, 1⟩),
   none,
   none,
   none,
   none,
   some (.product [] 1 512 1000)]

end Verif.Shipped
